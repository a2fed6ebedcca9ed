import Verif.Props.Rounding
import Mathlib.Data.Int.Log
import Mathlib.Algebra.Order.Round
import Mathlib.Analysis.SpecialFunctions.ExpDeriv

/-! # The hypotheses of C71 are met by binary floating point numbers and a system computed with rounding -/

namespace Verif
open Finset

/-- Binary floating point numbers with `m` digits, rounding to nearest, without bounds for the exponent; `m = 53` for `double`, `m = 24` for `float`. -/
noncomputable def binaryFormat (m : ℕ) : Rounding where
  rnd y := round (y * 2 ^ ((m : ℤ) - 1 - Int.log 2 |y|)) * 2 ^ (Int.log 2 |y| - (m - 1))
  u := 2 ^ (-(m : ℤ))

/-- the relative error is at most `2^-m` -/
theorem binaryFormat_rnd (m : ℕ) (y : ℝ) : |(binaryFormat m).rnd y - y| ≤ 2 ^ (-(m : ℤ)) * |y| := by
  rcases eq_or_ne y 0 with rfl | hy
  · simp [binaryFormat]
  have hy0 : 0 < |y| := abs_pos.2 hy
  set E := Int.log 2 |y| with hE
  have h1 : ((2 : ℕ) : ℝ) ^ E ≤ |y| := Int.zpow_log_le_self (by norm_num) hy0
  have h2 : y = y * 2 ^ ((m : ℤ) - 1 - E) * 2 ^ (E - (m - 1)) := by
    rw [mul_assoc, ← zpow_add₀ (by norm_num : (2 : ℝ) ≠ 0)]
    simp
  have h3 : (binaryFormat m).rnd y - y = (round (y * 2 ^ ((m : ℤ) - 1 - E)) - y * 2 ^ ((m : ℤ) - 1 - E)) * 2 ^ (E - (m - 1)) := by
    rw [sub_mul, ← h2]
    rfl
  rw [h3, abs_mul, abs_of_pos (by positivity : (0 : ℝ) < 2 ^ (E - (m - 1)))]
  have h4 := abs_sub_round (y * 2 ^ ((m : ℤ) - 1 - E))
  rw [abs_sub_comm] at h4
  calc _ ≤ 1 / 2 * (2 : ℝ) ^ (E - (m - 1)) := mul_le_mul_of_nonneg_right h4 (by positivity)
    _ = 2 ^ (-(m : ℤ)) * 2 ^ E := by
        rw [← zpow_add₀ (by norm_num : (2 : ℝ) ≠ 0), one_div, ← zpow_neg_one, ← zpow_add₀ (by norm_num : (2 : ℝ) ≠ 0)]
        congr 1
        ring
    _ ≤ _ := mul_le_mul_of_nonneg_left (by exact_mod_cast h1) (by positivity)

theorem binaryFormat_accurate (m : ℕ) (B : ℝ) (hB : B ≤ 2 ^ m) : (binaryFormat m).Accurate B where
  nonneg := by simp [binaryFormat]
  small := by
    simp only [binaryFormat, zpow_neg, zpow_natCast]
    rw [inv_mul_le_iff₀ (by positivity)]
    linarith
  close y _ := by
    have : (0 : ℝ) ≤ 2 ^ (-(m : ℤ)) := by positivity
    have h := binaryFormat_rnd m y
    simp only [binaryFormat] at h ⊢
    linarith

/-- The system function of `x' = t - x` in a number format: the difference is rounded. -/
def rampSys {ρ : Rounding} : Sys (Fl ρ) (Fin 1 → Fl ρ) ℕ := fun x t n => .ok (fun i => t - x i) (n + 1)

theorem rampSys_computes {ρ : Rounding} {B : ℝ} (hB : 2 ≤ B) (h : ρ.Accurate B) :
    ComputesRhs (fun x t i => t - x i) (fun r => 1 + 2 * r) B (rampSys (ρ := ρ)) := by
  refine ⟨fun x t i => t - x i, fun x t w => ⟨w + 1, rfl⟩, fun r hr x t hx ht => ?_⟩
  have hr0 : 0 ≤ r := (abs_nonneg _).trans ht
  have hu := h.nonneg
  refine (pi_norm_le_iff_of_nonneg (by positivity)).2 fun i => ?_
  have h1 : |t.val - (x i).val| ≤ 2 * r := by
    have := (norm_le_pi_norm (flVal x) i).trans hx
    rw [Real.norm_eq_abs] at this
    have h2 := abs_sub t.val (x i).val
    unfold flVal at this
    linarith
  have h2 := h.close (t.val - (x i).val) (by
    have := h.small
    have h3 : ρ.u * |t.val - (x i).val| ≤ ρ.u * (2 * B) := mul_le_mul_of_nonneg_left (by linarith) hu
    linarith)
  calc _ = |ρ.rnd (t.val - (x i).val) - (t.val - (x i).val)| := rfl
    _ ≤ ρ.u * (1 + |t.val - (x i).val|) := h2
    _ ≤ ρ.u * (1 + 2 * r) := mul_le_mul_of_nonneg_left (by linarith) hu
    _ = _ := mul_comm _ _

theorem ramp_good (n : ℕ) : GoodRhs (fun (x : Fin 1 → ℝ) t i => t - x i) n where
  smooth := contDiff_pi.2 fun i => contDiff_snd.sub ((contDiff_apply ℝ ℝ i).comp contDiff_fst)
  lipschitz := ⟨1, fun x y t => by
    rw [one_mul, ← norm_neg (x - y)]
    refine le_of_eq (congrArg _ (funext fun i => ?_))
    simp⟩

theorem ramp_solution : IsFlowLine (fun (x : Fin 1 → ℝ) t i => t - x i) fun t _ => t - 1 + Real.exp (-t) := by
  intro t
  refine hasDerivAt_pi.2 fun i => ?_
  have := ((hasDerivAt_id t).sub_const 1).add ((hasDerivAt_id t).neg.exp)
  refine this.congr_deriv ?_
  simp only [Pi.neg_apply, id_eq]
  ring

/-- `runge_kutta4` and `x' = t - x`, with rounding -/
theorem ramp_rk4 : ConvergesWithRounding (W := ℕ) 4 (fun (x : Fin 1 → ℝ) t i => t - x i) (fun t _ => t - 1 + Real.exp (-t))
    (fun ρ sys => stepperObject fun l t dt => doStep1 (rk4Impl (K := Fl ρ)) sys l t dt) fun _ _ => True :=
  explicit_steppers_converge_with_rounding .rk4 trivial rfl (ramp_good 5) ramp_solution

/-- For every constant `C` there are a number of digits and a step size such that the hypotheses of `ConvergesWithRounding` hold. -/
example (C : ℝ) (hC : 2 ≤ C) : ∃ (m : ℕ) (dt : ℝ), (binaryFormat m).Accurate C ∧ ComputesRhs (fun x t i => t - x i) (fun r => 1 + 2 * r) C
      (rampSys (ρ := binaryFormat m)) ∧ dt ≠ 0 ∧ |dt| ≤ 1 ∧ C * (0 + |dt| ^ 4 + (binaryFormat m).u / |dt|) ≤ 1 := by
  obtain ⟨m, hm⟩ := pow_unbounded_of_one_lt (4 * C ^ 2) (by norm_num : (1 : ℝ) < 2)
  have hC0 : 0 < C := by linarith
  have hacc := binaryFormat_accurate m C (by nlinarith)
  have hdt : (0 : ℝ) < 1 / (2 * C) := by positivity
  have hdt1 : 1 / (2 * C) ≤ 1 / 2 := one_div_le_one_div_of_le (by norm_num) (by linarith)
  refine ⟨m, 1 / (2 * C), hacc, rampSys_computes hC hacc, hdt.ne', ?_, ?_⟩
  · rw [abs_of_pos hdt]
    linarith
  rw [abs_of_pos hdt, zero_add, mul_add]
  have h1 : C * (1 / (2 * C)) ^ 4 ≤ 1 / 2 := by
    have h2 : (1 / (2 * C)) ^ 4 ≤ 1 / (2 * C) := by
      have := pow_le_pow_of_le_one hdt.le (by linarith) (show 1 ≤ 4 by norm_num)
      rwa [pow_one] at this
    calc C * (1 / (2 * C)) ^ 4 ≤ C * (1 / (2 * C)) := mul_le_mul_of_nonneg_left h2 hC0.le
      _ = 1 / 2 := by field_simp
  have h2 : C * ((binaryFormat m).u / (1 / (2 * C))) ≤ 1 / 2 := by
    have h3 : (binaryFormat m).u ≤ 1 / (4 * C ^ 2) := by
      simp only [binaryFormat, zpow_neg, zpow_natCast]
      rw [inv_eq_one_div]
      exact one_div_le_one_div_of_le (by positivity) hm.le
    calc C * ((binaryFormat m).u / (1 / (2 * C))) = 2 * C ^ 2 * (binaryFormat m).u := by field_simp
      _ ≤ 2 * C ^ 2 * (1 / (4 * C ^ 2)) := mul_le_mul_of_nonneg_left h3 (by positivity)
      _ = 1 / 2 := by field_simp; norm_num
  linarith

end Verif
