import Verif.Model.Rosenbrock
import Verif.Props.ErrorChecker
import Mathlib.Analysis.SpecialFunctions.Pow.Real
import Mathlib.Tactic.FieldSimp

/-!
# C22: the error measure of `rosenbrock4_controller`
-/

namespace Verif
set_option linter.unusedSectionVars false
open Finset

/-- what an error of 1 means in a component: `atol + rtol max( |xold| , |x| )` -/
noncomputable def rosScale (atol rtol xold x : ℝ) : ℝ := atol + rtol * max |xold| |x|

theorem rosErrorLoop_real (eps atol rtol : ℝ) : ∀ (n : ℕ) (x xold xerr : Fin n → ℝ) (a : ℝ),
    rosErrorLoop (realOps eps) atol rtol a (List.ofFn x) (List.ofFn xold) (List.ofFn xerr) =
      a + ∑ i, (xerr i / rosScale atol rtol (xold i) (x i)) ^ 2 := by
  intro n
  induction n with
  | zero => intro x xold xerr a; simp [rosErrorLoop]
  | succ n ih =>
    intro x xold xerr a
    simp only [List.ofFn_succ, rosErrorLoop]
    rw [ih, Fin.sum_univ_succ]
    have hmax : (realOps eps).max ((realOps eps).abs (xold 0)) ((realOps eps).abs (x 0)) = max |xold 0| |x 0| := by
      simp only [NumOps.max, realOps, decide_eq_true_eq]
      rw [max_def]
      split <;> split <;> first | rfl | (exfalso; linarith) | linarith
    rw [hmax]
    unfold rosScale
    rw [div_pow, pow_two, pow_two, div_div]
    ring

/-- C22: the error measure is the root mean square of the components of the error estimate, each in units of `atol + rtol max( |xold| , |x| )`. -/
theorem ros_error_rms (eps atol rtol : ℝ) (n : ℕ) (x xold xerr : Fin n → ℝ) :
    rosError (realOps eps) Real.sqrt atol rtol (List.ofFn x) (List.ofFn xold) (List.ofFn xerr) =
      Real.sqrt ((∑ i, (xerr i / rosScale atol rtol (xold i) (x i)) ^ 2) / n) := by
  unfold rosError
  rw [rosErrorLoop_real]
  simp [lit]

/-- C22: the error measure is at most 1 if every component of the estimate is within its tolerance, and only if every component is within `√n` times its tolerance. -/
theorem ros_error_tolerance (eps atol rtol : ℝ) (ha : 0 < atol) (hr : 0 ≤ rtol) (n : ℕ) (x xold xerr : Fin n → ℝ) :
    ((∀ i, |xerr i| ≤ rosScale atol rtol (xold i) (x i)) →
      rosError (realOps eps) Real.sqrt atol rtol (List.ofFn x) (List.ofFn xold) (List.ofFn xerr) ≤ 1) ∧
    (rosError (realOps eps) Real.sqrt atol rtol (List.ofFn x) (List.ofFn xold) (List.ofFn xerr) ≤ 1 →
      ∀ i, |xerr i| ≤ Real.sqrt n * rosScale atol rtol (xold i) (x i)) := by
  rw [ros_error_rms]
  have hpos : ∀ i, 0 < rosScale atol rtol (xold i) (x i) := by
    intro i
    unfold rosScale
    have : 0 ≤ rtol * max |xold i| |x i| := mul_nonneg hr (le_trans (abs_nonneg _) (le_max_left _ _))
    linarith
  rw [show (√((∑ i, (xerr i / rosScale atol rtol (xold i) (x i)) ^ 2) / (n : ℝ)) ≤ 1) = ((∑ i, (xerr i / rosScale atol rtol (xold i) (x i)) ^ 2) / (n : ℝ) ≤ 1) from
    propext Real.sqrt_le_one]
  constructor
  · intro h
    have hs : ∑ i, (xerr i / rosScale atol rtol (xold i) (x i)) ^ 2 ≤ ∑ _i : Fin n, (1 : ℝ) := by
      refine sum_le_sum fun i _ => ?_
      rw [sq_le_one_iff_abs_le_one, abs_div, abs_of_pos (hpos i), div_le_one (hpos i)]
      exact h i
    simp only [sum_const, card_univ, Fintype.card_fin, nsmul_eq_mul, mul_one] at hs
    exact div_le_one_of_le₀ hs (Nat.cast_nonneg n)
  · intro h i
    have hn : (0 : ℝ) < n := by exact_mod_cast (Nat.lt_of_le_of_lt (Nat.zero_le _) i.2)
    rw [div_le_one hn] at h
    have hi : (xerr i / rosScale atol rtol (xold i) (x i)) ^ 2 ≤ n :=
      le_trans (single_le_sum (f := fun i => (xerr i / rosScale atol rtol (xold i) (x i)) ^ 2) (fun j _ => sq_nonneg _) (mem_univ i)) h
    have h2 := Real.abs_le_sqrt hi
    rw [abs_div, abs_of_pos (hpos i), div_le_iff₀ (hpos i)] at h2
    exact h2

/-- Non-vacuity: two components with errors 0.5 and 1 in units of the tolerance 1. -/
example (eps : ℝ) : rosError (realOps eps) Real.sqrt 1 0 (List.ofFn ![3, 4]) (List.ofFn ![3, 4]) (List.ofFn ![1 / 2, 1]) = Real.sqrt (5 / 8) := by
  rw [ros_error_rms]
  congr 1
  simp only [Fin.sum_univ_two, rosScale, Matrix.cons_val_zero, Matrix.cons_val_one]
  norm_num

end Verif
