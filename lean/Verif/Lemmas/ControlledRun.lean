import Verif.Lemmas.GridRun
import Verif.Lemmas.Controlled
import Mathlib.Algebra.Order.Floor.Ring

/-! # Controlled steppers whose tries compute a function -/

namespace Verif

variable {V W Q : Type}

/-- How the tries of a controlled stepper behave, for integrations in the direction `σ` (`1` or `-1`) up to the time `T`: in every state of the
stepper allowed by `R` a try with a step size up to `L` returns, the step size keeps its direction and is at most divided by five; a successful try
yields `Φ` and satisfies `Acc`; a failed one changes neither state nor time and decreases the step size by a tenth at least; a try with step size up
to `hs` succeeds and does not decrease the step size.  A try with a larger step size than `L` only changes the step size to `L`. -/
structure TryFn (st : ControlledStepper Q (W × Log V ℝ) V ℝ) (R : Q → V → ℝ → Prop) (Φ : V → ℝ → ℝ → V) (Acc : V → ℝ → ℝ → Prop)
    (σ T hs L : ℝ) : Prop where
  within : ∀ q x t dt w l, R q x t → 0 < σ * dt → σ * (t + dt) ≤ T → σ * dt ≤ L → ∃ r w', st.tryStep q x t dt (w, l) = .ok r (w', l) ∧
    0 < σ * r.dt ∧ σ * dt / 5 ≤ σ * r.dt ∧ R r.q r.x r.t ∧
    (r.success = true → r.x = Φ x t dt ∧ r.t = t + dt ∧ Acc x t dt) ∧
    (r.success = false → r.x = x ∧ r.t = t ∧ σ * r.dt ≤ 9 / 10 * (σ * dt) ∧ hs < σ * dt) ∧
    (σ * dt ≤ hs → σ * dt ≤ σ * r.dt)
  beyond : ∀ q x t dt w l, R q x t → 0 < σ * dt → σ * (t + dt) ≤ T → L < σ * dt → ∃ q' dt' w',
    st.tryStep q x t dt (w, l) = .ok ⟨q', x, t, dt', false⟩ (w', l) ∧ σ * dt' = L ∧ R q' x t

variable {st : ControlledStepper Q (W × Log V ℝ) V ℝ} {R : Q → V → ℝ → Prop} {Φ : V → ℝ → ℝ → V} {Acc : V → ℝ → ℝ → Prop} {σ T hs L : ℝ}

theorem retryLoop_while (s : AdaptState Q V ℝ) (w : W × Log V ℝ) :
    retryLoop st s w = whileM (fun s : AdaptState Q V ℝ => !s.success) (retryBody st) { s with success := false } w := by
  rw [whileM_true (by rfl)]
  rfl

/-- consecutive observations are connected by an accepted step in the direction `σ` -/
def Accepted (Φ : V → ℝ → ℝ → V → Prop) (Acc : V → ℝ → ℝ → Prop) (σ L : ℝ) (a b : V × ℝ) : Prop :=
  0 < σ * (b.2 - a.2) ∧ σ * (b.2 - a.2) ≤ L ∧ Φ a.1 a.2 (b.2 - a.2) b.1 ∧ Acc a.1 a.2 (b.2 - a.2)

end Verif
