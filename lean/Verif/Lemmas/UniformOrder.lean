import Verif.Spec.Order
import Mathlib.Analysis.Calculus.ContDiff.Operations
import Mathlib.Analysis.Calculus.ContDiff.FTaylorSeries
import Mathlib.Analysis.Calculus.IteratedDeriv.Lemmas
import Mathlib.MeasureTheory.Integral.IntervalIntegral.Basic
import Mathlib.Analysis.SpecialFunctions.Exp
import Verif.Lemmas.BSeriesOrder

/-! # From the order of single steps to a bound that is uniform along a solution, and the accumulation of errors -/

namespace Verif
open Asymptotics Filter Topology Finset

variable {V : Type} [NormedAddCommGroup V] [NormedSpace ℝ V]

/-- a polynomial of degree less than `n` that is `O( h^n )` vanishes -/
theorem poly_vanish : ∀ (n : ℕ) (c : ℕ → V), (fun h : ℝ => ∑ k ∈ range n, h ^ k • c k) =O[𝓝[≠] 0] (fun h : ℝ => h ^ n) → ∀ k < n, c k = 0 := by
  intro n
  induction n with
  | zero => intro c _ k hk; omega
  | succ n ih =>
    intro c hO
    have hc0 : c 0 = 0 := by
      have h1 : Tendsto (fun h : ℝ => ∑ k ∈ range (n + 1), h ^ k • c k) (𝓝[≠] 0) (𝓝 (∑ k ∈ range (n + 1), (0 : ℝ) ^ k • c k)) := by
        apply Tendsto.mono_left _ nhdsWithin_le_nhds
        exact (continuous_finsetSum _ fun i _ => (continuous_pow i).smul continuous_const).tendsto 0
      have h2 : Tendsto (fun h : ℝ => h ^ (n + 1)) (𝓝[≠] 0) (𝓝 0) := by
        apply Tendsto.mono_left _ nhdsWithin_le_nhds
        have := (continuous_pow (n + 1)).tendsto (0 : ℝ)
        rwa [zero_pow (Nat.succ_ne_zero n)] at this
      have h3 := hO.trans_tendsto h2
      have h4 := tendsto_nhds_unique h1 h3
      rw [sum_range_succ'] at h4
      simpa using h4
    have hO' : (fun h : ℝ => ∑ k ∈ range n, h ^ k • c (k + 1)) =O[𝓝[≠] 0] (fun h : ℝ => h ^ n) := by
      obtain ⟨C, hC⟩ := hO.bound
      refine IsBigO.of_bound C ?_
      filter_upwards [hC, self_mem_nhdsWithin] with h hh h0
      have h0 : h ≠ 0 := h0
      have e : ∑ k ∈ range (n + 1), h ^ k • c k = h • ∑ k ∈ range n, h ^ k • c (k + 1) := by
        rw [sum_range_succ', hc0, smul_zero, add_zero, smul_sum]
        exact sum_congr rfl fun k _ => by rw [smul_smul, pow_succ']
      rw [e, norm_smul, pow_succ', norm_mul, ← mul_assoc, mul_comm C, mul_assoc] at hh
      exact le_of_mul_le_mul_left hh (norm_pos_iff.2 h0)
    intro k hk
    cases k with
    | zero => exact hc0
    | succ k => exact ih (fun k => c (k + 1)) hO' k (by omega)

/-- If a smooth function of `( t , h )` is `O( h^(p+1) )` for every `t` in a compact set, it is so uniformly. -/
theorem uniform_on_compact [CompleteSpace V] {E : Type} [NormedAddCommGroup E] [NormedSpace ℝ E] {p : ℕ} {G : E × ℝ → V}
    (hG : ContDiff ℝ ((p : WithTop ℕ∞) + 1) G) {S : Set E} (hS : IsCompact S)
    (hO : ∀ t ∈ S, (fun h : ℝ => G (t, h)) =O[𝓝 0] fun h : ℝ => h ^ (p + 1)) :
    ∃ M, 0 ≤ M ∧ ∀ t ∈ S, ∀ h, |h| ≤ 1 → ‖G (t, h)‖ ≤ M * |h| ^ (p + 1) := by
  have hcont : Continuous (iteratedFDeriv ℝ (p + 1) G) := hG.continuous_iteratedFDeriv (by norm_cast)
  have hcpt : IsCompact (S ×ˢ Set.Icc (-1 : ℝ) 1) := hS.prod isCompact_Icc
  obtain ⟨M0, hM0⟩ := hcpt.exists_bound_of_continuousOn hcont.continuousOn
  set M := max M0 0 with hM
  refine ⟨(p.factorial : ℝ)⁻¹ * M, by positivity, ?_⟩
  intro t ht
  -- Taylor's formula along `h`
  have taylor : ∀ h, |h| ≤ 1 → ‖G (t, h) - ∑ k ∈ range (p + 1), h ^ k • ((k.factorial : ℝ)⁻¹ • iteratedFDeriv ℝ k G (t, 0) fun _ => (0, 1))‖ ≤
      (p.factorial : ℝ)⁻¹ * M * |h| ^ (p + 1) := by
    intro h hh
    have hy : ‖((0, h) : E × ℝ)‖ = |h| := by simp [Prod.norm_def]
    have hT := map_add_eq_sum_add_integral_iteratedFDeriv (f := G) (x := (t, 0)) (y := (0, h)) (n := p) fun s _ => by
      exact_mod_cast hG.contDiffAt
    have e0 : ((t, 0) : E × ℝ) + (0, h) = (t, h) := by simp
    rw [e0] at hT
    have e1 : ∀ k, (k.factorial : ℝ)⁻¹ • iteratedFDeriv ℝ k G (t, 0) (fun _ => ((0, h) : E × ℝ)) =
        h ^ k • ((k.factorial : ℝ)⁻¹ • iteratedFDeriv ℝ k G (t, 0) fun _ => (0, 1)) := by
      intro k
      have : (fun _ : Fin k => ((0, h) : E × ℝ)) = fun i => (fun _ => h : Fin k → ℝ) i • (fun _ => ((0, 1) : E × ℝ)) i := by
        funext i; simp
      rw [this, ContinuousMultilinearMap.map_smul_univ]
      simp only [prod_const, card_univ, Fintype.card_fin]
      rw [smul_comm]
    have e2 : G (t, h) - ∑ k ∈ range (p + 1), h ^ k • ((k.factorial : ℝ)⁻¹ • iteratedFDeriv ℝ k G (t, 0) fun _ => (0, 1)) =
        (p.factorial : ℝ)⁻¹ • ∫ s in (0 : ℝ)..1, (1 - s) ^ p • iteratedFDeriv ℝ (p + 1) G ((t, 0) + s • (0, h)) (fun _ => (0, h)) := by
      rw [hT, sum_congr rfl fun k _ => e1 k, add_sub_cancel_left]
    rw [e2, norm_smul, norm_inv, RCLike.norm_natCast, mul_assoc]
    refine mul_le_mul_of_nonneg_left ?_ (by positivity)
    have hb := intervalIntegral.norm_integral_le_of_norm_le_const (a := (0 : ℝ)) (b := 1) (C := M * |h| ^ (p + 1))
      (f := fun s => (1 - s) ^ p • iteratedFDeriv ℝ (p + 1) G ((t, 0) + s • (0, h)) (fun _ => (0, h))) (fun s hs => ?_)
    · simpa using hb
    · rw [Set.uIoc_of_le zero_le_one] at hs
      rw [norm_smul, norm_pow, Real.norm_eq_abs, abs_of_nonneg (by linarith [hs.2])]
      have a1 : (1 - s) ^ p ≤ 1 := pow_le_one₀ (by linarith [hs.2]) (by linarith [hs.1])
      have hin : ((t, 0) + s • (0, h) : E × ℝ) ∈ S ×ˢ Set.Icc (-1 : ℝ) 1 := by
        have e3 : ((t, 0) + s • (0, h) : E × ℝ) = (t, s * h) := by simp
        rw [e3]
        refine ⟨ht, ?_⟩
        have : |s * h| ≤ 1 := by
          rw [abs_mul, abs_of_pos hs.1]
          have := abs_nonneg h
          nlinarith [hs.2]
        exact abs_le.1 this
      have a2 : ‖iteratedFDeriv ℝ (p + 1) G ((t, 0) + s • (0, h)) (fun _ => (0, h))‖ ≤ M * |h| ^ (p + 1) := by
        refine ((iteratedFDeriv ℝ (p + 1) G _).le_opNorm _).trans ?_
        rw [prod_const, card_univ, Fintype.card_fin, hy]
        exact mul_le_mul_of_nonneg_right ((hM0 _ hin).trans (le_max_left _ _)) (by positivity)
      calc (1 - s) ^ p * ‖iteratedFDeriv ℝ (p + 1) G ((t, 0) + s • (0, h)) (fun _ => (0, h))‖
          ≤ 1 * (M * |h| ^ (p + 1)) := mul_le_mul a1 a2 (norm_nonneg _) zero_le_one
        _ = _ := one_mul _
  have hz := poly_vanish (p + 1) (fun k => (k.factorial : ℝ)⁻¹ • iteratedFDeriv ℝ k G (t, 0) fun _ => (0, 1)) (by
    have h1 : (fun h : ℝ => G (t, h) - ∑ k ∈ range (p + 1), h ^ k • ((k.factorial : ℝ)⁻¹ • iteratedFDeriv ℝ k G (t, 0) fun _ => (0, 1)))
        =O[𝓝 0] fun h : ℝ => h ^ (p + 1) := by
      refine IsBigO.of_bound ((p.factorial : ℝ)⁻¹ * M) ?_
      filter_upwards [Metric.ball_mem_nhds (0 : ℝ) one_pos] with h hh
      rw [norm_pow, Real.norm_eq_abs]
      exact taylor h (by rw [mem_ball_zero_iff] at hh; exact hh.le)
    exact (((hO t ht).sub h1).congr_left fun h => by abel).mono nhdsWithin_le_nhds)
  intro h hh
  have := taylor h hh
  rwa [sum_eq_zero fun k hk => by rw [hz k (mem_range.1 hk), smul_zero], sub_zero] at this

/-- The same for step sizes up to any bound. -/
theorem uniform_on_compact_le [CompleteSpace V] {E : Type} [NormedAddCommGroup E] [NormedSpace ℝ E] {p : ℕ} {G : E × ℝ → V}
    (hG : ContDiff ℝ ((p : WithTop ℕ∞) + 1) G) {S : Set E} (hS : IsCompact S)
    (hO : ∀ t ∈ S, (fun h : ℝ => G (t, h)) =O[𝓝 0] fun h : ℝ => h ^ (p + 1)) (B : ℝ) :
    ∃ M, 0 ≤ M ∧ ∀ t ∈ S, ∀ h : ℝ, |h| ≤ B → ‖G (t, h)‖ ≤ M * |h| ^ (p + 1) := by
  obtain ⟨M, hM, h1⟩ := uniform_on_compact hG hS hO
  obtain ⟨N, hN⟩ := (hS.prod isCompact_Icc : IsCompact (S ×ˢ Set.Icc (-B) B)).exists_bound_of_continuousOn hG.continuous.continuousOn
  refine ⟨max M N, hM.trans (le_max_left _ _), fun t ht h hh => ?_⟩
  have h0 : 0 ≤ |h| ^ (p + 1) := pow_nonneg (abs_nonneg _) _
  rcases le_total |h| 1 with hle | hle
  · exact (h1 t ht h hle).trans (mul_le_mul_of_nonneg_right (le_max_left _ _) h0)
  · refine (hN (t, h) ⟨ht, abs_le.1 hh⟩).trans ((le_max_right M N).trans ?_)
    exact le_mul_of_one_le_right (hM.trans (le_max_left _ _)) (one_le_pow₀ hle)

/-- The same for times in an interval. -/
theorem uniform_of_pointwise_le [CompleteSpace V] {p : ℕ} {G : ℝ × ℝ → V} (hG : ContDiff ℝ ((p : WithTop ℕ∞) + 1) G)
    (hO : ∀ t, (fun h => G (t, h)) =O[𝓝 0] fun h : ℝ => h ^ (p + 1)) (a b B : ℝ) :
    ∃ M, 0 ≤ M ∧ ∀ t ∈ Set.Icc a b, ∀ h : ℝ, |h| ≤ B → ‖G (t, h)‖ ≤ M * |h| ^ (p + 1) :=
  uniform_on_compact_le hG isCompact_Icc (fun t _ => hO t) B

/-- The accumulation of errors over steps `h i`. -/
theorem error_growth {p : ℕ} {C M H : ℝ} (hC : 0 ≤ C) (hM : 0 ≤ M) (e h : ℕ → ℝ) (n : ℕ) (hh : ∀ i < n, 0 ≤ h i ∧ h i ≤ H)
    (hstep : ∀ i < n, e (i + 1) ≤ (1 + C * h i) * e i + M * h i ^ (p + 1)) (he : ∀ i ≤ n, 0 ≤ e i) :
    e n ≤ Real.exp (C * ∑ i ∈ range n, h i) * (e 0 + M * (∑ i ∈ range n, h i) * H ^ p) := by
  induction n with
  | zero => simp
  | succ n ih =>
    have ih := ih (fun i hi => hh i (by omega)) (fun i hi => hstep i (by omega)) (fun i hi => he i (by omega))
    obtain ⟨h1, h2⟩ := hh n (by omega)
    have hs := hstep n (by omega)
    set τ := ∑ i ∈ range n, h i with hτ
    have hτ0 : 0 ≤ τ := sum_nonneg fun i hi => (hh i (by have := mem_range.1 hi; omega)).1
    have e0 := he 0 (by omega)
    rw [sum_range_succ, ← hτ]
    have hH : 0 ≤ H := h1.trans h2
    have p1 : h n ^ (p + 1) ≤ h n * H ^ p := by
      rw [pow_succ']
      exact mul_le_mul_of_nonneg_left (pow_le_pow_left₀ h1 h2 p) h1
    have x1 : 1 + C * h n ≤ Real.exp (C * h n) := by
      have := Real.add_one_le_exp (C * h n)
      linarith
    have x2 : Real.exp (C * (τ + h n)) = Real.exp (C * h n) * Real.exp (C * τ) := by rw [← Real.exp_add]; ring_nf
    have x3 : 1 ≤ Real.exp (C * (τ + h n)) := Real.one_le_exp (by positivity)
    have b0 : 0 ≤ Real.exp (C * τ) * (e 0 + M * τ * H ^ p) := by positivity
    calc e (n + 1) ≤ (1 + C * h n) * e n + M * h n ^ (p + 1) := hs
      _ ≤ Real.exp (C * h n) * (Real.exp (C * τ) * (e 0 + M * τ * H ^ p)) + M * (h n * H ^ p) := by
          refine add_le_add ?_ (mul_le_mul_of_nonneg_left p1 hM)
          refine mul_le_mul x1 ih (he n (by omega)) (Real.exp_pos _).le
      _ = Real.exp (C * (τ + h n)) * (e 0 + M * τ * H ^ p) + 1 * (M * (h n * H ^ p)) := by rw [x2]; ring
      _ ≤ Real.exp (C * (τ + h n)) * (e 0 + M * τ * H ^ p) + Real.exp (C * (τ + h n)) * (M * (h n * H ^ p)) := by
          have : 0 ≤ M * (h n * H ^ p) := by positivity
          exact add_le_add le_rfl (mul_le_mul_of_nonneg_right x3 this)
      _ = _ := by ring

/-- a solution of `x' = f( x , t )` with smooth `f` is smooth -/
theorem solution_smooth {f : V → ℝ → V} {n : ℕ} (hf : ContDiff ℝ n fun z : V × ℝ => f z.1 z.2) {φ : ℝ → V}
    (hφ : ∀ t, HasDerivAt φ (f (φ t) t) t) : ContDiff ℝ (n + 1 : ℕ) φ := by
  have hd : deriv φ = fun t => f (φ t) t := funext fun t => (hφ t).deriv
  have hdiff : Differentiable ℝ φ := fun t => (hφ t).differentiableAt
  have key : ∀ m : ℕ, m ≤ n + 1 → ContDiff ℝ m φ := by
    intro m
    induction m with
    | zero => intro _; exact contDiff_zero.2 hdiff.continuous
    | succ m ih =>
      intro hm
      have h1 := ih (by omega)
      have : ContDiff ℝ ((m : WithTop ℕ∞) + 1) φ := by
        rw [contDiff_succ_iff_deriv]
        refine ⟨hdiff, fun h => absurd h (by exact_mod_cast WithTop.coe_ne_top), ?_⟩
        rw [hd]
        have hf' : ContDiff ℝ m fun z : V × ℝ => f z.1 z.2 := hf.of_le (by exact_mod_cast (by omega : m ≤ n))
        exact hf'.comp (h1.prodMk contDiff_id)
      exact_mod_cast this
  exact key (n + 1) le_rfl

end Verif
