import Verif.Model.Rounding
import Verif.Spec.Convergence

/-! # What it means that an integration with rounding errors converges -/

namespace Verif
variable {W : Type} {d : ℕ}

/-- the real values of a state -/
def flVal {ρ : Rounding} (x : Fin d → Fl ρ) : Fin d → ℝ := fun i => (x i).val

/-- Calls of the system function with states and times of size `r ≤ B` return the right hand side `f` up to an error of `κ r * u`. -/
def ComputesRhs (f : (Fin d → ℝ) → ℝ → Fin d → ℝ) (κ : ℝ → ℝ) (B : ℝ) {ρ : Rounding} (sys : Sys (Fl ρ) (Fin d → Fl ρ) W) : Prop :=
  ∃ g, Evaluates sys g ∧ ∀ r ≤ B, ∀ x t, ‖flVal x‖ ≤ r → |t.val| ≤ r → ‖flVal (g x t) - f (flVal x) t.val‖ ≤ κ r * ρ.u

/-- The `k`-th call of the observer is made at a time within `δ` of `t0 + k dt`, with a state within `err` of the solution there. -/
def ObservedCloseTo (φ : ℝ → Fin d → ℝ) (t0 dt δ err : ℝ) {ρ : Rounding} (l : Log (Fin d → Fl ρ) (Fl ρ)) : Prop :=
  ∀ (k : ℕ) (o : (Fin d → Fl ρ) × Fl ρ), l.observations[k]? = some o → |o.2.val - (t0 + k * dt)| ≤ δ ∧ ‖flVal o.1 - φ (t0 + k * dt)‖ ≤ err

/-- The integrate functions with a fixed step size converge with order `p` to the solution `φ` of `x' = f( x , t )` in every arithmetic with rounding:
on every interval `[a,b]` and for every accuracy `κ` of the system function there is a constant `C`, the same for all number formats, such that all
observed states are within `C * ( |x0 - φ t0| + |dt|^p + u / |dt| )` of the solution, provided this is at most `1`. -/
def ConvergesWithRounding (p : ℕ) (f : (Fin d → ℝ) → ℝ → Fin d → ℝ) (φ : ℝ → Fin d → ℝ)
    (st : (ρ : Rounding) → Sys (Fl ρ) (Fin d → Fl ρ) W → BasicStepper (Heap (Fl ρ) (Fin d → Fl ρ) W) (W × Log (Fin d → Fl ρ) (Fl ρ)) (Fin d → Fl ρ) (Fl ρ))
    (fresh : (ρ : Rounding) → Heap (Fl ρ) (Fin d → Fl ρ) W → Prop) : Prop :=
  ∀ (a b : ℝ) (κ : ℝ → ℝ), ∃ C, ∀ (ρ : Rounding) (sys : Sys (Fl ρ) (Fin d → Fl ρ) W), ρ.Accurate C → ComputesRhs f κ C sys →
    ∀ (eps t0 t1 dt : Fl ρ) (x0 : Fin d → Fl ρ) (q : Heap (Fl ρ) (Fin d → Fl ρ) W) (w : W) (l : Log (Fin d → Fl ρ) (Fl ρ)), fresh ρ q →
    0 ≤ eps.val → eps.val ≤ 1 → t0.val ∈ Set.Icc a b → t1.val ∈ Set.Icc a b → dt.val ≠ 0 → |dt.val| ≤ 1 →
    let bound := C * (‖flVal x0 - φ t0.val‖ + |dt.val| ^ p + ρ.u / |dt.val|)
    /- how far the exact grid point number `k` is beyond `t1` -/
    let beyond := fun k : ℕ => if 0 < dt.val then t0.val + k * dt.val - t1.val else t1.val - (t0.val + k * dt.val)
    bound ≤ 1 →
    /- `integrate_n_steps` with `n` steps, the last one ending in `[a,b]` -/
    (∀ n : ℕ, t0.val + n * dt.val ∈ Set.Icc a b →
      ∃ x t w' l', integrateNStepsBasic (TimeArith.rounded ρ eps) (st ρ sys) recordObserver q x0 t0 dt n (w, l) = .ok (x, t) (w', l ++ l') ∧
        l'.observations.length = n + 1 ∧ l'.observations[n]? = some (x, t) ∧ ObservedCloseTo φ t0.val dt.val (C * ρ.u) bound l') ∧
    /- `integrate_const` to the last grid point that is, up to rounding errors, not beyond `t1 + eps` -/
    (∃ x n w' l' t, integrateConstBasic (TimeArith.rounded ρ eps) (st ρ sys) recordObserver q x0 t0 t1 dt (w, l) = .ok (x, n) (w', l ++ l') ∧
        l'.observations.length = n + 1 ∧ l'.observations[n]? = some (x, t) ∧ ObservedCloseTo φ t0.val dt.val (C * ρ.u) bound l' ∧
        (n ≠ 0 → beyond n ≤ eps.val + C * ρ.u) ∧ eps.val - C * ρ.u ≤ beyond (n + 1))

end Verif
