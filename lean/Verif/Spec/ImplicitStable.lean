import Verif.Spec.ImplicitEulerRun
import Verif.Model.ImplicitEulerMtl4
import Mathlib.Analysis.InnerProductSpace.PiL2

/-! # Specification vocabulary: stability of the implicit steppers for dissipative systems -/

namespace Verif
variable {W Q V : Type} {n : ℕ}

/-- The Euclidean length of a vector. -/
noncomputable def len (v : Fin n → ℝ) : ℝ := Real.sqrt (∑ i, v i ^ 2)

/-- The distance of two solutions of `x' = f( x , t )` never grows. -/
def Dissipative (f : (Fin n → ℝ) → ℝ → Fin n → ℝ) : Prop := ∀ x y t, ∑ i, (x i - y i) * (f x t i - f y t i) ≤ 0

/-- `implicit_euler_mtl4` as the integrate functions see it. -/
def ieMtl4Object (solver : LinearSolver ℝ n) (sys : Sys ℝ (Fin n → ℝ) W) (jac : IeJac ℝ W n) :
    BasicStepper Unit (W × Log (Fin n → ℝ) ℝ) (Fin n → ℝ) ℝ where
  doStep _ x t dt := fun w =>
    match ieMtl4Step solver sys jac x t dt w.1 with
    | .ok y w' => .ok ((), y) (w', w.2)
    | .err e w' => .err e (w', w.2)
    | .ub => .ub
    | .div => .div

/-- Two integrations have been observed at the same times, and the distance of the states grows by at most `δ` in every step. -/
def StayTogether (δ : ℝ) (o o' : Log (Fin n → ℝ) ℝ) : Prop :=
  o.observations.map Prod.snd = o'.observations.map Prod.snd ∧
  ∀ k a b c d, o.observations[k]? = some a → o'.observations[k]? = some b → o.observations[k + 1]? = some c → o'.observations[k + 1]? = some d →
    len (c.1 - d.1) ≤ len (a.1 - b.1) + δ

/-- Whenever two integrations with the steppers `st`, with the step size `dt` and from the same start to the same end, both return, they stay together. -/
def KeepsTogether (δ dt : ℝ) (st : BasicStepper Q (W × Log (Fin n → ℝ) ℝ) (Fin n → ℝ) ℝ) : Prop :=
  ∀ (eps t0 t1 : ℝ) (x0 z0 : Fin n → ℝ) (q q' : Q) (w w' : W) (l l' : Log (Fin n → ℝ) ℝ), 0 ≤ eps →
    let A := TimeArith.exact ℝ eps
    (∀ (m : ℕ) x z t t' w₁ w₂ l₁ l₂, integrateNStepsBasic A st recordObserver q x0 t0 dt m (w, l) = .ok (x, t) (w₁, l₁) →
      integrateNStepsBasic A st recordObserver q' z0 t0 dt m (w', l') = .ok (z, t') (w₂, l₂) →
      ∃ o o', l₁ = l ++ o ∧ l₂ = l' ++ o' ∧ StayTogether δ o o' ∧ len (x - z) ≤ len (x0 - z0) + m * δ) ∧
    (∀ m m' x z w₁ w₂ l₁ l₂, integrateConstBasic A st recordObserver q x0 t0 t1 dt (w, l) = .ok (x, m) (w₁, l₁) →
      integrateConstBasic A st recordObserver q' z0 t0 t1 dt (w', l') = .ok (z, m') (w₂, l₂) →
      m = m' ∧ ∃ o o', l₁ = l ++ o ∧ l₂ = l' ++ o' ∧ StayTogether δ o o' ∧ len (x - z) ≤ len (x0 - z0) + m * δ) ∧
    (∀ m m' x z w₁ w₂ l₁ l₂, integrateAdaptiveBasic A st recordObserver q x0 t0 t1 dt (w, l) = .ok (x, m) (w₁, l₁) →
      integrateAdaptiveBasic A st recordObserver q' z0 t0 t1 dt (w', l') = .ok (z, m') (w₂, l₂) →
      m = m' ∧ ∃ o o', l₁ = l ++ o ∧ l₂ = l' ++ o' ∧ StayTogether δ o o' ∧ len (x - z) ≤ len (x0 - z0) + m * δ)

end Verif
