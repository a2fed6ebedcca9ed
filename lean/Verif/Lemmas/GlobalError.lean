import Verif.Lemmas.RkRegular

/-! # From local to global errors -/

namespace Verif
open Finset Filter Topology

variable {V : Type} [NormedAddCommGroup V] [NormedSpace ℝ V] [CompleteSpace V]

/-- The global error of a one-step method of order `p` on any grid, forward or backward. -/
theorem global_error {p : ℕ} {f : V → ℝ → V} (hf : GoodRhs f (p + 1)) {Φ : V → ℝ → ℝ → V} (hΦ : RegularStep (p + 1) Φ)
    {φ : ℝ → V} (hφ : IsFlowLine f φ) (hord : ∀ t, LocalOrder p (Φ (φ t) t) t φ) (a b T B : ℝ) :
    ∃ C, 0 ≤ C ∧ ∀ (n : ℕ) (t : ℕ → ℝ) (X : ℕ → V) (H : ℝ), H ≤ B →
      (∀ i < n, t i ∈ Set.Icc a b ∧ |t (i + 1) - t i| ≤ H ∧ X (i + 1) = Φ (X i) (t i) (t (i + 1) - t i)) →
      ∑ i ∈ range n, |t (i + 1) - t i| ≤ T → 0 ≤ H →
      ‖X n - φ (t n)‖ ≤ C * (‖X 0 - φ (t 0)‖ + H ^ p) := by
  obtain ⟨M, hM, hloc⟩ := local_error_uniform hf hΦ hφ hord a b B
  obtain ⟨L, hL, hlip⟩ := hΦ.lipschitz B
  refine ⟨Real.exp (L * T) * (1 + M * |T|), by positivity, ?_⟩
  intro n t X H hH hstep hT hH0
  have hT0 : 0 ≤ T := (sum_nonneg fun i _ => abs_nonneg _).trans hT
  have key := error_growth (p := p) (H := H) hL hM (fun i => ‖X i - φ (t i)‖) (fun i => |t (i + 1) - t i|) n
    (fun i hi => ⟨abs_nonneg _, (hstep i hi).2.1⟩) (fun i hi => ?_) (fun _ _ => norm_nonneg _)
  · refine key.trans ?_
    have h1 : Real.exp (L * ∑ i ∈ range n, |t (i + 1) - t i|) ≤ Real.exp (L * T) :=
      Real.exp_le_exp.2 (mul_le_mul_of_nonneg_left hT hL)
    rw [mul_assoc (Real.exp (L * T))]
    refine mul_le_mul h1 ?_ (by positivity) (Real.exp_pos _).le
    have h2 : M * (∑ i ∈ range n, |t (i + 1) - t i|) * H ^ p ≤ M * T * H ^ p :=
      mul_le_mul_of_nonneg_right (mul_le_mul_of_nonneg_left hT hM) (by positivity)
    rw [abs_of_nonneg hT0]
    nlinarith [norm_nonneg (X 0 - φ (t 0)), mul_nonneg hM hT0, pow_nonneg hH0 p, mul_nonneg (mul_nonneg hM hT0) (norm_nonneg (X 0 - φ (t 0)))]
  · obtain ⟨h1, h2, h3⟩ := hstep i hi
    have h4 := hlip (X i) (φ (t i)) (t i) _ (h2.trans hH)
    have h5 := hloc (t i) h1 _ (h2.trans hH)
    rw [add_sub_cancel] at h5
    rw [h3]
    refine (le_of_eq ?_).trans ((norm_add_le _ _).trans (add_le_add h4 h5))
    congr 1
    abel

end Verif
