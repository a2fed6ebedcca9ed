import Verif.Spec.Convergence

/-! # Specification vocabulary: whole integrations as maps from the start state to the end state -/

namespace Verif
variable {V W Q : Type}

/-- The three integrate functions that make steps of a given size. -/
inductive FixedCall where
  /-- `integrate_n_steps( ... , t0 , dt , n )` -/
  | nSteps (n : ℕ)
  /-- `integrate_const( ... , t0 , t1 , dt )` -/
  | const (t1 : ℝ)
  /-- `integrate_adaptive( ... , t0 , t1 , dt )` -/
  | adaptive (t1 : ℝ)

/-- The call, with the observer that records its calls; returns the state of the caller after the call.  `eps` is the tolerance in the comparison of
times. -/
noncomputable def FixedCall.run (c : FixedCall) (st : BasicStepper Q (W × Log V ℝ) V ℝ) (eps t0 dt : ℝ) (q : Q) (x0 : V) : M (W × Log V ℝ) V :=
  match c with
  | .nSteps n => do let r ← integrateNStepsBasic (TimeArith.exact ℝ eps) st recordObserver q x0 t0 dt n; pure r.1
  | .const t1 => do let r ← integrateConstBasic (TimeArith.exact ℝ eps) st recordObserver q x0 t0 t1 dt; pure r.1
  | .adaptive t1 => do let r ← integrateAdaptiveBasic (TimeArith.exact ℝ eps) st recordObserver q x0 t0 t1 dt; pure r.1

/-- Whatever the start state `x0` is, the call returns `Ψ n x0`, and the states `Ψ 0 x0 , ... , Ψ n x0` have been observed at the times
`τ 0 , ... , τ n`.  The stepper is in a state that satisfies `fresh`. -/
def RunsBy (c : FixedCall) (st : BasicStepper Q (W × Log V ℝ) V ℝ) (fresh : Q → Prop) (eps t0 dt : ℝ) (n : ℕ) (τ : ℕ → ℝ) (Ψ : ℕ → V → V) : Prop :=
  ∀ (x0 : V) (q : Q) (w : W) (l : Log V ℝ), fresh q →
    ∃ w', c.run st eps t0 dt q x0 (w, l) = .ok (Ψ n x0) (w', l ++ (List.range (n + 1)).map fun k => .obs (Ψ k x0) (τ k))

/-- An integration that is followed by an integration back to the start, with another stepper `q'` and in another world, returns to the start state, and
observes the same states in reverse order. -/
def Reverses (st : BasicStepper Q (W × Log V ℝ) V ℝ) (fresh : Q → Prop) : Prop :=
  ∀ (eps t0 dt : ℝ) (x0 : V) (q q' : Q) (w : W) (l : Log V ℝ), fresh q → fresh q' →
    let A := TimeArith.exact ℝ eps
    (∀ n : ℕ, ∃ x w₁ o, integrateNStepsBasic A st recordObserver q x0 t0 dt n (w, l) = .ok (x, t0 + n * dt) (w₁, l ++ o) ∧
      ∀ w₂ l₂, ∃ w₃, integrateNStepsBasic A st recordObserver q' x (t0 + n * dt) (-dt) n (w₂, l₂) = .ok (x0, t0) (w₃, l₂ ++ o.reverse)) ∧
    (0 ≤ eps → eps < |dt| → ∀ t1, ∃ x n w₁ o, integrateConstBasic A st recordObserver q x0 t0 t1 dt (w, l) = .ok (x, n) (w₁, l ++ o) ∧
      ∀ w₂ l₂, ∃ w₃, integrateConstBasic A st recordObserver q' x (t0 + n * dt) t0 (-dt) (w₂, l₂) = .ok (x0, n) (w₃, l₂ ++ o.reverse))

end Verif
