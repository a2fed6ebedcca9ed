import Verif.Model.Rounding
import Verif.Model.Integrate

/-! # Times in floating point numbers -/

namespace Verif

/-- The result is a value or an exception: the call neither runs forever nor has undefined behaviour. -/
def Res.Ends {W α : Type} (r : Res W α) : Prop := r.Sat (fun _ _ => True) (fun _ _ => True) False

/-- A floating point format (without overflow): results are rounded with relative error `u`, rounding is monotone and leaves the numbers of the format
and their negatives as they are, and the difference of two numbers of the format that is not larger than either of them is exact (Sterbenz). -/
structure Rounding.Floating (ρ : Rounding) : Prop where
  nonneg : 0 ≤ ρ.u
  small : ρ.u ≤ 1 / 16
  relative : ∀ y, |ρ.rnd y - y| ≤ ρ.u * |y|
  mono : Monotone ρ.rnd
  idem : ∀ y, ρ.rnd (ρ.rnd y) = ρ.rnd y
  neg : ∀ y, ρ.rnd y = y → ρ.rnd (-y) = -y
  sterbenz : ∀ a b, ρ.rnd a = a → ρ.rnd b = b → |b - a| ≤ |a| → |b - a| ≤ |b| → ρ.rnd (b - a) = b - a

/-- `x` is a number of the format. -/
def Fl.IsNumber {ρ : Rounding} (x : Fl ρ) : Prop := ρ.rnd x.val = x.val

variable {ρ : Rounding} {Q W S : Type}

/-- `+1` for integration forwards in time and `-1` for backwards -/
noncomputable def Fl.dir (dt : Fl ρ) : ℝ := if 0 < dt.val then 1 else -1

/-- A controlled stepper whose step sizes do not vanish: `try_step` ends; a successful step advances the time by the step size and the next step size is
not smaller, or at least `δ`; after a failure the time is the same and the step size is reduced, but not below `δ`.  `s` is the direction. -/
def StepsAtLeast (st : ControlledStepper Q W S (Fl ρ)) (s δ : ℝ) : Prop :=
  ∀ q x (t dt : Fl ρ) w, 0 < s * dt.val → (st.tryStep q x t dt w).Sat (fun r _ =>
    if r.success then r.t = t + dt ∧ min (s * dt.val) δ ≤ s * r.dt.val else r.t = t ∧ s * r.dt.val ≤ s * dt.val ∧ δ ≤ s * r.dt.val)
    (fun _ _ => True) False

/-- The same for a dense output stepper: `initialize` sets time and step size; `do_step` advances the time by the current step size or by a smaller one
that is at least `δ`, and the next step size is at least as large as the current one or `δ`. -/
structure DenseStepsAtLeast (st : DenseStepper Q W S (Fl ρ)) (s δ : ℝ) : Prop where
  init : ∀ q x t dt w, (st.init q x t dt w).Sat (fun q' _ => st.curTime q' = t ∧ st.curDt q' = dt) (fun _ _ => True) False
  step : ∀ q w, 0 < s * (st.curDt q).val → (st.doStep q w).Sat (fun q' _ =>
    (∃ h : Fl ρ, st.curTime q' = st.curTime q + h ∧ s * h.val ≤ s * (st.curDt q).val ∧ min (s * (st.curDt q).val) δ ≤ s * h.val) ∧
    min (s * (st.curDt q).val) δ ≤ s * (st.curDt q').val) (fun _ _ => True) False

end Verif
