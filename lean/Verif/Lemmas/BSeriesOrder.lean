import Verif.Lemmas.BSeriesTree
import Verif.Spec.ButcherTableau
import Mathlib.Analysis.Calculus.ContDiff.Operations
import Mathlib.Analysis.Calculus.Deriv.Prod
import Mathlib.Analysis.Calculus.Deriv.Shift
import Mathlib.MeasureTheory.Integral.IntervalIntegral.Basic

/-! # The order of a Runge-Kutta method with given Butcher tableau -/

set_option linter.unusedSectionVars false

namespace Verif.BSeries
open Asymptotics Filter Topology Finset

/-- a function that is `n + 1` times continuously differentiable has a Taylor polynomial -/
theorem taylorAt_of_contDiffAt {E : Type*} [NormedAddCommGroup E] [NormedSpace ℝ E] [CompleteSpace E] {f : E → E} {x0 : E} {n : ℕ}
    (hf : ContDiffAt ℝ ((n : WithTop ℕ∞) + 1) f x0) :
    TaylorAt f (fun k => (k.factorial : ℝ)⁻¹ • iteratedFDeriv ℝ k f x0) x0 (n + 1) := by
  have h1 := hf.eventually (by exact_mod_cast WithTop.coe_ne_top)
  have hcont : ContinuousAt (iteratedFDeriv ℝ (n + 1) f) x0 :=
    (hf.iteratedFDeriv_right (i := n + 1) (m := 0) (by simp)).continuousAt
  have h2 : ∀ᶠ z in 𝓝 x0, ‖iteratedFDeriv ℝ (n + 1) f z‖ < ‖iteratedFDeriv ℝ (n + 1) f x0‖ + 1 :=
    hcont.norm.eventually (gt_mem_nhds (lt_add_one _))
  obtain ⟨ε, hε, hball⟩ := Metric.eventually_nhds_iff_ball.1 (h1.and h2)
  set M := ‖iteratedFDeriv ℝ (n + 1) f x0‖ + 1 with hM
  unfold TaylorAt
  refine IsBigO.of_bound ((n.factorial : ℝ)⁻¹ * M) (Metric.eventually_nhds_iff_ball.2 ⟨ε, hε, fun y hy => ?_⟩)
  have hy' : ‖y‖ < ε := by simpa using hy
  have hseg : ∀ t ∈ Set.Icc (0 : ℝ) 1, x0 + t • y ∈ Metric.ball x0 ε := by
    intro t ht
    rw [Metric.mem_ball, dist_eq_norm, add_sub_cancel_left, norm_smul, Real.norm_eq_abs, abs_of_nonneg ht.1]
    have := norm_nonneg y
    nlinarith [ht.2]
  have ht := map_add_eq_sum_add_integral_iteratedFDeriv (f := f) (x := x0) (y := y) (n := n) fun t ht => (hball _ (hseg t ht)).1
  have e : f (x0 + y) - FormalMultilinearSeries.partialSum (fun k => (k.factorial : ℝ)⁻¹ • iteratedFDeriv ℝ k f x0) (n + 1) y =
      (n.factorial : ℝ)⁻¹ • ∫ t in (0 : ℝ)..1, (1 - t) ^ n • iteratedFDeriv ℝ (n + 1) f (x0 + t • y) (fun _ => y) := by
    rw [ht]
    simp only [FormalMultilinearSeries.partialSum, ContinuousMultilinearMap.smul_apply]
    abel
  rw [e, norm_smul, norm_inv, mul_assoc, norm_pow, norm_norm]
  rw [RCLike.norm_natCast]
  refine mul_le_mul_of_nonneg_left ?_ (by positivity)
  have hb := intervalIntegral.norm_integral_le_of_norm_le_const (a := (0 : ℝ)) (b := 1) (C := M * ‖y‖ ^ (n + 1))
    (f := fun t => (1 - t) ^ n • iteratedFDeriv ℝ (n + 1) f (x0 + t • y) (fun _ => y)) (fun t ht => ?_)
  · simpa using hb
  · rw [Set.uIoc_of_le zero_le_one] at ht
    have ht' : t ∈ Set.Icc (0 : ℝ) 1 := ⟨ht.1.le, ht.2⟩
    rw [norm_smul, norm_pow, Real.norm_eq_abs, abs_of_nonneg (by linarith [ht.2])]
    have a1 : (1 - t) ^ n ≤ 1 := pow_le_one₀ (by linarith [ht.2]) (by linarith [ht.1])
    have a2 : ‖iteratedFDeriv ℝ (n + 1) f (x0 + t • y) (fun _ => y)‖ ≤ M * ‖y‖ ^ (n + 1) := by
      refine ((iteratedFDeriv ℝ (n + 1) f (x0 + t • y)).le_opNorm _).trans ?_
      rw [Finset.prod_const, Finset.card_univ, Fintype.card_fin]
      exact mul_le_mul_of_nonneg_right (hball _ (hseg t ht')).2.le (by positivity)
    calc (1 - t) ^ n * ‖iteratedFDeriv ℝ (n + 1) f (x0 + t • y) (fun _ => y)‖
        ≤ 1 * (M * ‖y‖ ^ (n + 1)) := mul_le_mul a1 a2 (norm_nonneg _) zero_le_one
      _ = _ := one_mul _

/-- the order conditions up to order `p`, for weights `b` -/
def OrderConditions {K : Type} [Field K] (A : ℕ → ℕ → K) (b : ℕ → K) (n p : ℕ) : Prop :=
  ∀ τ : PTree Unit, τ.size ≤ p → ∑ i ∈ range n, b i * stageWeight A (fun _ => ()) τ i = exactWeight τ / (τ.size : K)

/-- the weights `b` annihilate all elementary weights up to order `p` -/
def VanishingConditions {K : Type} [Field K] (A : ℕ → ℕ → K) (b : ℕ → K) (n p : ℕ) : Prop :=
  ∀ τ : PTree Unit, τ.size ≤ p → ∑ i ∈ range n, b i * stageWeight A (fun _ => ()) τ i = 0

section
variable {V : Type} [NormedAddCommGroup V] [NormedSpace ℝ V] [CompleteSpace V]

/-- the right-hand side with the time as a further component -/
def augment (f : V → ℝ → V) : V × ℝ → V × ℝ := fun z => (f z.1 z.2, 1)

theorem augment_contDiffAt {f : V → ℝ → V} {n : WithTop ℕ∞} {x0 : V} {t0 : ℝ} (hf : ContDiffAt ℝ n (fun z : V × ℝ => f z.1 z.2) (x0, t0)) :
    ContDiffAt ℝ n (augment f) (x0, t0) := hf.prodMk contDiffAt_const

theorem _root_.Verif.BSeries.Exp.fst {y : ℝ → V × ℝ} {c : ℕ → V × ℝ} {n : ℕ} (h : Exp y c n) : Exp (fun x => (y x).1) (fun s => (c s).1) n := by
  unfold Exp at *
  refine ((ContinuousLinearMap.fst ℝ V ℝ).isBigO_comp _ (𝓝 0) |>.trans h).congr_left fun x => ?_
  simp only [ContinuousLinearMap.coe_fst', Prod.fst_sub, Prod.smul_fst, Prod.fst_sum]

/-- the elementary differential of `x' = f(x,t)` at `(x0,t0)` that belongs to a tree -/
noncomputable def elementary (f : V → ℝ → V) (x0 : V) (t0 : ℝ) (τ : PTree Unit) : V :=
  (elem (fun _ => app (fun k => (k.factorial : ℝ)⁻¹ • iteratedFDeriv ℝ k (augment f) (x0, t0))) τ).1

theorem tsum_fst (q : ℕ) (g : PTree Unit → V × ℝ) : (tsum q g).1 = tsum q fun τ => (g τ).1 :=
  tsum_map (LinearMap.fst ℝ V ℝ) q g

/-- the expansion of `h sum b_i k_i`, for the stages `k_i = f( x0 + h sum_{j<i} a_ij k_j , t0 + c_i h )` -/
theorem rk_expand {A : ℕ → ℕ → ℝ} {c : ℕ → ℝ} {n : ℕ} (hc : ∀ i, i < n → c i = ∑ j ∈ range i, A i j) {N : ℕ} {f : V → ℝ → V} {x0 : V} {t0 : ℝ}
    (hf : ContDiffAt ℝ ((N : WithTop ℕ∞) + 1) (fun z : V × ℝ => f z.1 z.2) (x0, t0)) {k : ℕ → ℝ → V}
    (hk : ∀ i, i < n → ∀ h, k i h = f (x0 + h • ∑ j ∈ range i, A i j • k j h) (t0 + c i * h)) (b : ℕ → ℝ) :
    Exp (fun h => h • ∑ i ∈ range n, b i • k i h) (fun s => match s with
      | 0 => 0
      | s + 1 => tsum s fun τ => (∑ i ∈ range n, b i * stageWeight A (fun _ => ()) τ i) • elementary f x0 t0 τ) (N + 1) := by
  have hT := taylorAt_of_contDiffAt (n := N) (augment_contDiffAt (f := f) (x0 := x0) (t0 := t0) hf)
  have hk' : ∀ i, i < n → ∀ h, ((k i h, (1 : ℝ)) : V × ℝ) = augment f ((x0, t0) + h • ∑ j ∈ range i, A i j • ((k j h, (1 : ℝ)) : V × ℝ)) := by
    intro i hi h
    have h1 := hk i hi h
    unfold augment
    simp only [Prod.fst_add, Prod.snd_add, Prod.smul_fst, Prod.smul_snd, Prod.fst_sum, Prod.snd_sum, smul_eq_mul, mul_one]
    rw [← hc i hi, mul_comm]
    exact congrArg (fun v => (v, (1 : ℝ))) h1
  have h1 := (Exp.sum (range n) (fun i hi => stage_expand (ι := Unit) (f := fun _ => augment f) (fun _ => hT) A (fun _ => ()) n hk' i
    (Finset.mem_range.1 hi)) b).shift.fst
  refine h1.congr (fun h => by simp only [Prod.smul_fst, Prod.fst_sum]) fun s hs => ?_
  cases s with
  | zero => rfl
  | succ s =>
    simp only [tsum_smul, ← tsum_finset]
    rw [tsum_fst]
    refine tsum_congr s fun τ _ => ?_
    rw [Finset.sum_smul]
    simp only [smul_smul, Prod.fst_sum, Prod.smul_fst]
    rfl

/-- the expansion of the exact solution -/
theorem solution_expand {N : ℕ} {f : V → ℝ → V} {x0 : V} {t0 : ℝ}
    (hf : ContDiffAt ℝ ((N : WithTop ℕ∞) + 1) (fun z : V × ℝ => f z.1 z.2) (x0, t0)) {φ : ℝ → V} (h0 : φ t0 = x0)
    (hφ : ∀ᶠ t in 𝓝 t0, HasDerivAt φ (f (φ t) t) t) :
    Exp (fun h => φ (t0 + h) - x0) (fun s => match s with
      | 0 => 0
      | s + 1 => tsum s fun τ => (exactWeight τ / (τ.size : ℝ)) • elementary f x0 t0 τ) (N + 1) := by
  have hT := taylorAt_of_contDiffAt (n := N) (augment_contDiffAt (f := f) (x0 := x0) (t0 := t0) hf)
  have hy : ∀ᶠ h in 𝓝 (0 : ℝ), HasDerivAt (fun h => (φ (t0 + h) - x0, h))
      (∑ _c : Unit, augment f ((x0, t0) + (φ (t0 + h) - x0, h))) h := by
    have ht : Tendsto (fun h : ℝ => t0 + h) (𝓝 0) (𝓝 t0) := by
      have : ContinuousAt (fun h : ℝ => t0 + h) 0 := by fun_prop
      simpa [ContinuousAt] using this
    filter_upwards [ht.eventually hφ] with h hh
    simp only [Finset.univ_unique, Finset.sum_singleton, augment, Prod.mk_add_mk, add_sub_cancel]
    exact ((hh.comp_const_add t0 h).sub_const x0).prodMk (hasDerivAt_id h)
  have h2 := (exact_expand (ι := Unit) (f := fun _ => augment f) (x0 := (x0, t0)) (y := fun h => (φ (t0 + h) - x0, h)) (by simp [h0]) hy
    (N + 1) (fun _ => hT)).fst
  refine h2.congr (fun h => rfl) fun s hs => ?_
  cases s with
  | zero => rfl
  | succ s =>
    simp only []
    rw [tsum_fst]
    rfl

theorem rk_order {T : Tableau ℝ} (hc : ∀ i, i < T.size → T.ci i = ∑ j ∈ range i, T.aij i j) {p : ℕ} (hp : 1 ≤ p)
    (hb : OrderConditions T.aij T.bi T.size p) {f : V → ℝ → V} {x0 : V} {t0 : ℝ}
    (hf : ContDiffAt ℝ p (fun z : V × ℝ => f z.1 z.2) (x0, t0)) {φ : ℝ → V} (h0 : φ t0 = x0)
    (hφ : ∀ᶠ t in 𝓝 t0, HasDerivAt φ (f (φ t) t) t) {k : ℕ → ℝ → V} (hk : ∀ h, T.IsStages f x0 t0 h fun i => k i h) :
    (fun h => T.result x0 h (fun i => k i h) - φ (t0 + h)) =O[𝓝 0] fun h : ℝ => h ^ (p + 1) := by
  obtain ⟨N, rfl⟩ : ∃ N, p = N + 1 := ⟨p - 1, by omega⟩
  have hf' : ContDiffAt ℝ ((N : WithTop ℕ∞) + 1) (fun z : V × ℝ => f z.1 z.2) (x0, t0) := by exact_mod_cast hf
  have h1 := rk_expand hc hf' (fun i hi h => hk h i hi) T.bi
  have h2 := solution_expand hf' h0 hφ
  refine (h1.sub h2 fun s hs => ?_).congr_left fun h => ?_
  · cases s with
    | zero => rfl
    | succ s => exact tsum_congr s fun τ hτ => by rw [hb τ (by omega)]
  · simp only [Tableau.result]
    abel

theorem tsum_zero_fun (s : ℕ) : tsum s (fun _ : PTree Unit => (0 : V)) = 0 := by
  have := tsum_smul s (0 : ℝ) (fun _ : PTree Unit => (0 : V))
  simpa using this.symm

theorem rk_small {T : Tableau ℝ} (hc : ∀ i, i < T.size → T.ci i = ∑ j ∈ range i, T.aij i j) {p : ℕ} (hp : 1 ≤ p) {b2 : List ℝ}
    (hb : VanishingConditions T.aij (fun i => b2.getD i 0) T.size p) {f : V → ℝ → V} {x0 : V} {t0 : ℝ}
    (hf : ContDiffAt ℝ p (fun z : V × ℝ => f z.1 z.2) (x0, t0)) {k : ℕ → ℝ → V} (hk : ∀ h, T.IsStages f x0 t0 h fun i => k i h) :
    (fun h => T.errorEstimate b2 h (fun i => k i h)) =O[𝓝 0] fun h : ℝ => h ^ (p + 1) := by
  obtain ⟨N, rfl⟩ : ∃ N, p = N + 1 := ⟨p - 1, by omega⟩
  have hf' : ContDiffAt ℝ ((N : WithTop ℕ∞) + 1) (fun z : V × ℝ => f z.1 z.2) (x0, t0) := by exact_mod_cast hf
  have h1 := rk_expand hc hf' (fun i hi h => hk h i hi) (fun i => b2.getD i 0)
  have h2 : Exp (fun _ : ℝ => (0 : V)) (fun _ => 0) (N + 1) := by
    unfold Exp
    simpa using isBigO_zero _ _
  refine (h1.sub h2 fun s hs => ?_).congr_left fun h => sub_zero _
  cases s with
  | zero => rfl
  | succ s =>
    simp only []
    refine (tsum_congr s fun τ hτ => ?_).trans (tsum_zero_fun s)
    rw [hb τ (by omega), zero_smul]

end

end Verif.BSeries
