import Verif.Props.ImplicitEulerRun
import Verif.Lemmas.UblasNear
import Verif.Props.ControlledRunWitness

/-! # C81: `implicit_euler` with the linear algebra of ublas -/

namespace Verif
open Finset
variable {W : Type} {n : ℕ}

/-- `norm_2( b ) > epsilon` -/
noncomputable def norm2Above (ε : ℝ) (b : Fin n → ℝ) : Bool := decide (ε < Real.sqrt (∑ i, b i * b i))

theorem norm2Above_small {ε : ℝ} (hε : 0 < ε) : ∀ b : Fin n → ℝ, ‖b‖ ≤ ε / (n + 1) → norm2Above ε b = false := by
  intro b hb
  have hn : (0 : ℝ) ≤ n := Nat.cast_nonneg n
  rw [norm2Above, decide_eq_false_iff_not, not_lt, Real.sqrt_le_left hε.le]
  have h1 : ∀ i ∈ (univ : Finset (Fin n)), b i * b i ≤ (ε / (n + 1)) * (ε / (n + 1)) := by
    intro i _
    have h := (norm_le_pi_norm b i).trans hb
    rw [Real.norm_eq_abs] at h
    have := abs_le.1 h
    nlinarith
  refine (sum_le_sum h1).trans ?_
  rw [sum_const, card_univ, Fintype.card_fin, nsmul_eq_mul]
  have e : (n : ℝ) * (ε / (n + 1) * (ε / (n + 1))) = ε ^ 2 * (n / (n + 1) ^ 2) := by
    field_simp
  rw [e]
  refine mul_le_of_le_one_right (sq_nonneg ε) ?_
  rw [div_le_one (by positivity)]
  nlinarith

/-- **C81**: with `implicit_euler` and ublas, the integrate functions return and converge with order one if the steps are small enough (the size depends on
the interval, the distance of the start state from the solution, the system and the tolerance of the Newton iteration).  The tolerance need not tend to zero, and the
Jacobian may be any bounded matrix. -/
theorem implicit_euler_converges {ε : ℝ} (hε : 0 < ε) {sys : Sys ℝ (Fin n → ℝ) W} {f : (Fin n → ℝ) → ℝ → Fin n → ℝ} (hs : Evaluates sys f) (hf : GoodRhs f 1)
    {jac : IeJac ℝ W n} {J : (Fin n → ℝ) → ℝ → Matrix (Fin n) (Fin n) ℝ} (hjac : jac.Evaluates J) {B : ℝ} (hB : ∀ x t i j, |J x t i j| ≤ B)
    {φ : ℝ → Fin n → ℝ} (hφ : IsFlowLine f φ) :
    ConvergesForSmallSteps 1 (ieObject (ublasLu (fun x => |x|) leB n) (norm2Above ε) sys jac) φ := by
  refine implicit_euler_converges_solver _ ?_ (by positivity) (ublasLu_near n) (by positivity) (norm2Above_small hε) hs hf hjac hB hφ
  have h1 : (1 : ℝ) ≤ 2 ^ n := one_le_pow₀ (by norm_num)
  have h2 : (0 : ℝ) ≤ 8 ^ n := by positivity
  nlinarith

/-- The harmonic oscillator with its Jacobian. -/
example : ConvergesForSmallSteps 1 (ieObject (ublasLu (fun x => |x|) leB 2) (norm2Above (1 / 1000000)) (countSys oscillator)
    (fun _ _ => pure (Matrix.of ![![0, 1], ![-1, 0]]))) fun t i => if i = 0 then Real.sin t else Real.cos t := by
  refine implicit_euler_converges (by norm_num) oscillator_evaluates (oscillator_good 1) (J := fun _ _ => Matrix.of ![![0, 1], ![-1, 0]]) (fun _ _ w => ⟨w, rfl⟩)
    (B := 1) ?_ oscillator_solution
  intro x t i j
  fin_cases i <;> fin_cases j <;> simp

end Verif
