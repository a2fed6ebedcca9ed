import Verif.Lemmas.RosWeights
import Verif.Spec.RosenbrockOrder
import Verif.Spec.Order
import Verif.Props.Rosenbrock
import Mathlib.Analysis.Calculus.ContDiff.FTaylorSeries
import Mathlib.Tactic.FieldSimp
import Mathlib.Tactic.Module
import Mathlib.Analysis.Calculus.Deriv.Inv

/-!
# C82: order of `rosenbrock4` for nonlinear systems that do not depend on the time
-/

set_option linter.unusedSectionVars false

namespace Verif
open BSeries Asymptotics Filter Topology Finset
variable {V : Type} [NormedAddCommGroup V] [NormedSpace ℝ V]

/-- the stages by number -/
def RosStages.get (r : RosStages V) : ℕ → V
  | 0 => r.g1
  | 1 => r.g2
  | 2 => r.g3
  | 3 => r.g4
  | 4 => r.g5
  | 5 => r.g6
  | _ => 0

/-- the stages solve the equations of `ros_stage_expand` -/
theorem ros_stage_equations {C : RosCoef ℝ} (hγ : C.gamma ≠ 0) {F : V → V} {J : V →ₗ[ℝ] V} {x0 x1 : V} {t0 h : ℝ} (hh : h ≠ 0) {r : RosStages V}
    (hr : IsRosenbrock C (fun x _ => F x) J 0 x0 t0 h r x1) (i : ℕ) (hi : i < 6) :
    r.get i = C.gamma • ((h • F (x0 + ∑ j ∈ range i, rosA C i j • r.get j) + ∑ j ∈ range i, rosC C i j • r.get j) + h • J (r.get i)) := by
  obtain ⟨s1, s2, s3, s4, s5, y, s6, hx⟩ := hr
  have key : ∀ g b : V, (1 / (C.gamma * h)) • g - J g = b → g = C.gamma • (h • b + h • J g) := by
    intro g b e
    have : (C.gamma * h) • ((1 / (C.gamma * h)) • g - J g) = (C.gamma * h) • b := by rw [e]
    rw [smul_sub, smul_smul, mul_one_div_cancel (mul_ne_zero hγ hh), one_smul] at this
    rw [smul_add, smul_smul, smul_smul, ← this]
    abel
  rw [y] at s6
  replace s1 := key _ _ s1
  replace s2 := key _ _ s2
  replace s3 := key _ _ s3
  replace s4 := key _ _ s4
  replace s5 := key _ _ s5
  replace s6 := key _ _ s6
  simp only [smul_zero, add_zero] at s1 s2 s3 s4 s5 s6
  have q : ∀ (c : ℝ) (v : V), h • (c / h) • v = c • v := by
    intro c v
    rw [smul_smul, mul_div_cancel₀ _ hh]
  simp only [smul_add, q] at s1 s2 s3 s4 s5 s6
  interval_cases i <;> simp only [RosStages.get, rosA, rosC, Finset.sum_range_succ, Finset.sum_range_zero, zero_add, add_zero, one_smul, smul_add,
    ← add_assoc] at *
  · exact s1
  · exact s2
  · exact s3
  · exact s4
  · exact s5
  · exact s6

/-- the Taylor coefficients of `F` -/
noncomputable def taylor (F : V → V) (x0 : V) : FormalMultilinearSeries ℝ V V := fun k => (k.factorial : ℝ)⁻¹ • iteratedFDeriv ℝ k F x0

theorem taylor_linear (F : V → V) (x0 : V) : IsLinearPart (taylor F x0) (fderiv ℝ F x0) := by
  intro v
  show ((Nat.factorial 1 : ℝ)⁻¹ • iteratedFDeriv ℝ 1 F x0) _ = _
  simp

theorem taylor_norm {F : V → V} {x0 : V} {m : ℝ} (hm : ∀ k, k ≤ 3 → ‖iteratedFDeriv ℝ k F x0‖ ≤ m) (k : ℕ) (hk : k ≤ 3) :
    ‖taylor F x0 k‖ ≤ m := by
  unfold taylor
  rw [norm_smul, norm_inv, RCLike.norm_natCast]
  have h1 : (1 : ℝ) ≤ k.factorial := by exact_mod_cast k.factorial_pos
  have h2 : ((k.factorial : ℝ))⁻¹ ≤ 1 := inv_le_one_of_one_le₀ h1
  have h3 := norm_nonneg (iteratedFDeriv ℝ k F x0)
  nlinarith [hm k hk]

/-- an expansion with small coefficients -/
theorem smallUpTo_of_exp {y : ℝ → V} {c : ℕ → V} {p : ℕ} {δ m : ℝ} {err : ℝ → V} (h : Exp y c p) (h0 : c 0 = 0)
    (hc : ∀ k, k < p → ‖c (k + 1)‖ ≤ δ * m ^ (k + 1)) (he : ∀ᶠ h in 𝓝[≠] (0 : ℝ), err h = y h) : SmallUpTo δ m p err := by
  obtain ⟨C, hC⟩ := IsBigO.bound h
  rw [eventually_nhdsWithin_iff] at he
  obtain ⟨η, hη, hb⟩ := Metric.eventually_nhds_iff_ball.1 (hC.and he)
  refine ⟨C, η, hη, fun s hs hs' => ?_⟩
  obtain ⟨h1, h2⟩ := hb s (by simpa using hs')
  rw [h2 hs]
  rw [norm_pow, Real.norm_eq_abs] at h1
  rw [Finset.sum_range_succ', h0, smul_zero, add_zero] at h1
  have h2 : ‖∑ k ∈ range p, s ^ (k + 1) • c (k + 1)‖ ≤ δ * ∑ k ∈ range p, (m * |s|) ^ (k + 1) := by
    rw [Finset.mul_sum]
    refine (norm_sum_le _ _).trans (Finset.sum_le_sum fun k hk => ?_)
    rw [norm_smul, norm_pow, Real.norm_eq_abs, mul_pow, ← mul_assoc, mul_comm]
    exact mul_le_mul_of_nonneg_right (hc k (Finset.mem_range.1 hk)) (by positivity)
  have h3 := norm_add_le (y s - ∑ k ∈ range p, s ^ (k + 1) • c (k + 1)) (∑ k ∈ range p, s ^ (k + 1) • c (k + 1))
  rw [sub_add_cancel] at h3
  linarith

section
variable [CompleteSpace V]

/-- the expansion of the stages, with zero for the step size zero -/
theorem ros_expansion {F : V → V} {x0 : V} {t0 : ℝ} {N : ℕ} (hF : ContDiffAt ℝ ((N : WithTop ℕ∞) + 1) F x0)
    {r : ℝ → RosStages V} {x1 : ℝ → V}
    (hr : ∀ᶠ h in 𝓝[≠] (0 : ℝ), IsRosenbrock defaultRosenbrock (fun x _ => F x) (fderiv ℝ F x0 : V →ₗ[ℝ] V) 0 x0 t0 h (r h) (x1 h))
    (i : ℕ) (hi : i < 6) :
    Exp (fun h => if h = 0 then 0 else (r h).get i) (tcoef (taylor F x0) fun τ => RosWeights.T τ i) (N + 1) := by
  have hγ : (defaultRosenbrock (K := ℝ)).gamma ≠ 0 := by norm_num [defaultRosenbrock, frac, lit]
  refine ros_stage_expand (f := F) (taylorAt_of_contDiffAt hF) (taylor_linear F x0) _ _ _ 6 (g := fun i h => if h = 0 then 0 else (r h).get i)
    (fun i hi => ?_) i hi
  rw [eventually_nhdsWithin_iff] at hr
  filter_upwards [hr] with h hh
  by_cases h0 : h = 0
  · simp [h0]
  · simp only [if_neg h0]
    exact ros_stage_equations hγ h0 (hh h0) i hi

/-- the expansion of the solution -/
theorem autonomous_expansion {F : V → V} {x0 : V} {t0 : ℝ} {N : ℕ} (hF : ContDiffAt ℝ ((N : WithTop ℕ∞) + 1) F x0) {φ : ℝ → V}
    (hφ : IsSolution (fun x _ => F x) x0 t0 φ) :
    Exp (fun h => φ (t0 + h) - x0) (tcoef (taylor F x0) fun τ => exactWeight τ / (τ.size : ℝ)) (N + 1) := by
  have hy : ∀ᶠ h in 𝓝 (0 : ℝ), HasDerivAt (fun h => φ (t0 + h) - x0) (∑ _c : Unit, F (x0 + (φ (t0 + h) - x0))) h := by
    have ht : Tendsto (fun h : ℝ => t0 + h) (𝓝 0) (𝓝 t0) := by
      have : ContinuousAt (fun h : ℝ => t0 + h) 0 := by fun_prop
      simpa [ContinuousAt] using this
    filter_upwards [ht.eventually hφ.deriv] with h hh
    simp only [Finset.univ_unique, Finset.sum_singleton, add_sub_cancel]
    exact (hh.comp_const_add t0 h).sub_const x0
  refine (exact_expand (ι := Unit) (f := fun _ => F) (p := fun _ => taylor F x0) (x0 := x0) (y := fun h => φ (t0 + h) - x0) (by simp [hφ.start]) hy
    (N + 1) (fun _ => taylorAt_of_contDiffAt hF)).congr (fun _ => rfl) fun s _ => ?_
  cases s <;> rfl

/-- the weights of the result -/
noncomputable def rosB : ℕ → ℝ
  | 0 => defaultRosenbrock.a51
  | 1 => defaultRosenbrock.a52
  | 2 => defaultRosenbrock.a53
  | 3 => defaultRosenbrock.a54
  | 4 => 1
  | 5 => 1
  | _ => 0

open RosWeights in
/-- the order conditions -/
theorem ros_conditions (τ : PTree Unit) (hτ : τ.size ≤ 4) :
    |∑ i ∈ range 6, rosB i * T τ i - exactWeight τ / (τ.size : ℝ)| ≤ 1 / 10 ^ 15 := by
  have b0 : rosB 0 = 1221224509226641 / 1000000000000000 := by norm_num [rosB, defaultRosenbrock, frac, lit]
  have b1 : rosB 1 = 6019134481288629 / 1000000000000000 := by norm_num [rosB, defaultRosenbrock, frac, lit]
  have b2 : rosB 2 = 1253708332932087 / 100000000000000 := by norm_num [rosB, defaultRosenbrock, frac, lit]
  have b3 : rosB 3 = -687886036105895 / 1000000000000000 := by norm_num [rosB, defaultRosenbrock, frac, lit]
  have b4 : rosB 4 = 1 := rfl
  have b5 : rosB 5 = 1 := rfl
  revert τ
  refine trees_four 4 le_rfl ?_ ?_ ?_ ?_ ?_ ?_ ?_ ?_ ?_ <;> intro _ <;>
    simp only [sum_range_succ, sum_range_zero, b0, b1, b2, b3, b4, b5, exactWeight, PTree.size, abs_le]
  · simp only [w1_0, w1_1, w1_2, w1_3, w1_4, w1_5]; constructor <;> norm_num
  · simp only [w2_0, w2_1, w2_2, w2_3, w2_4, w2_5]; constructor <;> norm_num
  · simp only [w3_0, w3_1, w3_2, w3_3, w3_4, w3_5]; constructor <;> norm_num
  · simp only [w4_0, w4_1, w4_2, w4_3, w4_4, w4_5]; constructor <;> norm_num
  · simp only [w5_0, w5_1, w5_2, w5_3, w5_4, w5_5]; constructor <;> norm_num
  · simp only [w6_0, w6_1, w6_2, w6_3, w6_4, w6_5]; constructor <;> norm_num
  · simp only [w7_0, w7_1, w7_2, w7_3, w7_4, w7_5]; constructor <;> norm_num
  · simp only [w8_0, w8_1, w8_2, w8_3, w8_4, w8_5]; constructor <;> norm_num
  · simp only [w9_0, w9_1, w9_2, w9_3, w9_4, w9_5]; constructor <;> norm_num

open RosWeights in
theorem ros_error_conditions (τ : PTree Unit) (hτ : τ.size ≤ 3) : |T τ 5| ≤ 1 / 10 ^ 15 := by
  revert τ
  refine trees_four 3 (by norm_num) ?_ ?_ ?_ ?_ ?_ ?_ ?_ ?_ ?_ <;> intro h <;> first | omega | skip
  · rw [w1_5, abs_le]; constructor <;> norm_num
  · rw [w2_5, abs_le]; constructor <;> norm_num
  · rw [w3_5, abs_le]; constructor <;> norm_num
  · rw [w4_5, abs_le]; constructor <;> norm_num

/-- the result of a step in terms of the stages -/
theorem ros_result {F : V → V} {J : V →ₗ[ℝ] V} {x0 x1 : V} {t0 h : ℝ} {r : RosStages V}
    (hr : IsRosenbrock defaultRosenbrock (fun x _ => F x) J 0 x0 t0 h r x1) : x1 = x0 + ∑ i ∈ range 6, rosB i • r.get i := by
  rw [hr.x1, hr.y]
  simp only [Finset.sum_range_succ, Finset.sum_range_zero, RosStages.get, rosB, one_smul]
  abel

/-- **C82**: the error of one step of `rosenbrock4` for `x' = F(x)` is of fifth order, and the error estimate of fourth order, up to the rounding of
the tabulated coefficients. -/
theorem ros_nonlinear_order {F : V → V} {x0 : V} {t0 : ℝ} (hF : ContDiffAt ℝ 4 F x0) {φ : ℝ → V} (hφ : IsSolution (fun x _ => F x) x0 t0 φ)
    {m : ℝ} (hm : ∀ k, k ≤ 3 → ‖iteratedFDeriv ℝ k F x0‖ ≤ m) {r : ℝ → RosStages V} {x1 : ℝ → V}
    (hr : ∀ᶠ h in 𝓝[≠] (0 : ℝ), IsRosenbrock defaultRosenbrock (fun x _ => F x) (fderiv ℝ F x0 : V →ₗ[ℝ] V) 0 x0 t0 h (r h) (x1 h)) :
    SmallUpTo (1 / 10 ^ 14) m 4 (fun h => x1 h - φ (t0 + h)) ∧ SmallUpTo (1 / 10 ^ 14) m 3 (fun h => (r h).g6) := by
  have m0 : 0 ≤ m := (norm_nonneg _).trans (hm 0 (by omega))
  have hp := taylor_norm hm
  have E := ros_expansion (N := 3) (by exact_mod_cast hF) hr
  have S := autonomous_expansion (N := 3) (by exact_mod_cast hF) hφ
  constructor
  · have h1 : Exp (fun h => ∑ i ∈ range 6, rosB i • (if h = 0 then 0 else (r h).get i))
        (tcoef (taylor F x0) fun τ => ∑ i ∈ range 6, rosB i * RosWeights.T τ i) 4 :=
      (Exp.sum (range 6) (fun i hi => E i (Finset.mem_range.1 hi)) rosB).congr (fun _ => rfl) fun s _ => tcoef_sum _ _ _ _ s
    have h2 := ((h1.smul 1).add (S.smul (-1))).congr (fun _ => rfl) fun s _ => tcoef_two _ _ _ _ _ s
    refine smallUpTo_of_exp h2 rfl (fun k hk => ?_) ?_
    · refine (norm_tsum_small (δ := 1 / 10 ^ 15) hp _ k (by omega) (fun τ hτ => ?_) (by positivity)).trans ?_
      · have := ros_conditions τ (by omega)
        rwa [one_mul, neg_one_mul, ← sub_eq_add_neg]
      · have : 0 ≤ m ^ (k + 1) := by positivity
        nlinarith
    · filter_upwards [hr, self_mem_nhdsWithin] with h hh h0
      have h0' : h ≠ 0 := h0
      simp only [if_neg h0']
      rw [ros_result hh, one_smul, neg_one_smul]
      abel
  · refine smallUpTo_of_exp ((E 5 (by norm_num)).mono (by norm_num : 3 ≤ 3 + 1)) rfl (fun k hk => ?_) ?_
    · refine (norm_tsum_small (δ := 1 / 10 ^ 15) hp _ k (by omega) (fun τ hτ => ?_) (by positivity)).trans ?_
      · exact ros_error_conditions τ (by omega)
      · have : 0 ≤ m ^ (k + 1) := by positivity
        nlinarith
    · filter_upwards [self_mem_nhdsWithin] with h h0
      have h0' : h ≠ 0 := h0
      rw [if_neg h0']
      rfl

/-! ## Dense output -/

/-- the coefficients of the interpolant -/
noncomputable def rosD2 : ℕ → ℝ
  | 0 => defaultRosenbrock.d21
  | 1 => defaultRosenbrock.d22
  | 2 => defaultRosenbrock.d23
  | 3 => defaultRosenbrock.d24
  | 4 => defaultRosenbrock.d25
  | _ => 0

noncomputable def rosD3 : ℕ → ℝ
  | 0 => defaultRosenbrock.d31
  | 1 => defaultRosenbrock.d32
  | 2 => defaultRosenbrock.d33
  | 3 => defaultRosenbrock.d34
  | 4 => defaultRosenbrock.d35
  | _ => 0

theorem abs_combination {a b c ε θ : ℝ} (ha : |a| ≤ ε) (hb : |b| ≤ ε) (hc : |c| ≤ ε) (h0 : 0 ≤ θ) (h1 : θ ≤ 1) :
    |θ * a + θ * (1 - θ) * b + θ * (1 - θ) * θ * c| ≤ 3 * ε := by
  have e0 : 0 ≤ ε := (abs_nonneg _).trans ha
  have k1 : |θ * a| ≤ ε := by
    rw [abs_mul, abs_of_nonneg h0]; nlinarith [abs_nonneg a]
  have t1 : 0 ≤ θ * (1 - θ) := mul_nonneg h0 (by linarith)
  have t2 : θ * (1 - θ) ≤ 1 := by nlinarith
  have t3 : 0 ≤ θ * (1 - θ) * θ := mul_nonneg t1 h0
  have t4 : θ * (1 - θ) * θ ≤ 1 := by nlinarith
  have k2 : |θ * (1 - θ) * b| ≤ ε := by
    rw [abs_mul, abs_of_nonneg t1]; nlinarith [abs_nonneg b]
  have k3 : |θ * (1 - θ) * θ * c| ≤ ε := by
    rw [abs_mul, abs_of_nonneg t3]; nlinarith [abs_nonneg c]
  have := abs_add_le (θ * a + θ * (1 - θ) * b) (θ * (1 - θ) * θ * c)
  have := abs_add_le (θ * a) (θ * (1 - θ) * b)
  linarith

open RosWeights in
/-- the order conditions of the interpolant -/
theorem ros_dense_conditions {θ : ℝ} (h0 : 0 ≤ θ) (h1 : θ ≤ 1) (τ : PTree Unit) (hτ : τ.size ≤ 3) :
    |θ * (∑ i ∈ range 6, rosB i * T τ i) + θ * (1 - θ) * (∑ i ∈ range 6, rosD2 i * T τ i) + θ * (1 - θ) * θ * (∑ i ∈ range 6, rosD3 i * T τ i)
      - θ ^ τ.size * (exactWeight τ / (τ.size : ℝ))| ≤ 3 * (2 / 10 ^ 15) := by
  have d20 : rosD2 0 = 1012623508344586 / 100000000000000 := by norm_num [rosD2, defaultRosenbrock, frac, lit]
  have d21 : rosD2 1 = -7487995877610167 / 1000000000000000 := by norm_num [rosD2, defaultRosenbrock, frac, lit]
  have d22 : rosD2 2 = -3480091861555747 / 100000000000000 := by norm_num [rosD2, defaultRosenbrock, frac, lit]
  have d23 : rosD2 3 = -7992771707568823 / 1000000000000000 := by norm_num [rosD2, defaultRosenbrock, frac, lit]
  have d24 : rosD2 4 = 1025137723295662 / 1000000000000000 := by norm_num [rosD2, defaultRosenbrock, frac, lit]
  have d25 : rosD2 5 = 0 := rfl
  have d30 : rosD3 0 = -6762803392801253 / 10000000000000000 := by norm_num [rosD3, defaultRosenbrock, frac, lit]
  have d31 : rosD3 1 = 6087714651680015 / 1000000000000000 := by norm_num [rosD3, defaultRosenbrock, frac, lit]
  have d32 : rosD3 2 = 1643084320892478 / 100000000000000 := by norm_num [rosD3, defaultRosenbrock, frac, lit]
  have d33 : rosD3 3 = 2476722511418386 / 100000000000000 := by norm_num [rosD3, defaultRosenbrock, frac, lit]
  have d34 : rosD3 4 = -6594389125716872 / 1000000000000000 := by norm_num [rosD3, defaultRosenbrock, frac, lit]
  have d35 : rosD3 5 = 0 := rfl
  have S := ros_conditions τ (by omega)
  have key : ∀ (κ2 κ3 E : ℝ), |∑ i ∈ range 6, rosB i * T τ i - E| ≤ 2 / 10 ^ 15 → |∑ i ∈ range 6, rosD2 i * T τ i - κ2| ≤ 2 / 10 ^ 15 →
      |∑ i ∈ range 6, rosD3 i * T τ i - κ3| ≤ 2 / 10 ^ 15 → ∀ n : ℕ, θ * E + θ * (1 - θ) * κ2 + θ * (1 - θ) * θ * κ3 = θ ^ n * E →
      |θ * (∑ i ∈ range 6, rosB i * T τ i) + θ * (1 - θ) * (∑ i ∈ range 6, rosD2 i * T τ i) + θ * (1 - θ) * θ * (∑ i ∈ range 6, rosD3 i * T τ i)
      - θ ^ n * E| ≤ 3 * (2 / 10 ^ 15) := by
    intro κ2 κ3 E q1 q2 q3 n hn
    rw [← hn]
    refine le_of_eq_of_le (congrArg _ ?_) (abs_combination q1 q2 q3 h0 h1)
    ring
  have S' := S.trans (by norm_num : (1 : ℝ) / 10 ^ 15 ≤ 2 / 10 ^ 15)
  revert τ
  refine trees_four 3 (by norm_num) ?_ ?_ ?_ ?_ ?_ ?_ ?_ ?_ ?_ <;> intro h S key S' <;> first | omega | skip
  · refine key 0 0 _ S' ?_ ?_ _ ?_
    · simp only [sum_range_succ, sum_range_zero, d20, d21, d22, d23, d24, d25, w1_0, w1_1, w1_2, w1_3, w1_4, w1_5, abs_le]; constructor <;> norm_num
    · simp only [sum_range_succ, sum_range_zero, d30, d31, d32, d33, d34, d35, w1_0, w1_1, w1_2, w1_3, w1_4, w1_5, abs_le]; constructor <;> norm_num
    · simp [PTree.size, exactWeight]
  · refine key (-1 / 2) 0 _ S' ?_ ?_ _ ?_
    · simp only [sum_range_succ, sum_range_zero, d20, d21, d22, d23, d24, d25, w2_0, w2_1, w2_2, w2_3, w2_4, w2_5, abs_le]; constructor <;> norm_num
    · simp only [sum_range_succ, sum_range_zero, d30, d31, d32, d33, d34, d35, w2_0, w2_1, w2_2, w2_3, w2_4, w2_5, abs_le]; constructor <;> norm_num
    · simp only [PTree.size, exactWeight]; push_cast; ring
  · refine key (-1 / 3) (-1 / 3) _ S' ?_ ?_ _ ?_
    · simp only [sum_range_succ, sum_range_zero, d20, d21, d22, d23, d24, d25, w3_0, w3_1, w3_2, w3_3, w3_4, w3_5, abs_le]; constructor <;> norm_num
    · simp only [sum_range_succ, sum_range_zero, d30, d31, d32, d33, d34, d35, w3_0, w3_1, w3_2, w3_3, w3_4, w3_5, abs_le]; constructor <;> norm_num
    · simp only [PTree.size, exactWeight]; push_cast; ring
  · refine key (-1 / 6) (-1 / 6) _ S' ?_ ?_ _ ?_
    · simp only [sum_range_succ, sum_range_zero, d20, d21, d22, d23, d24, d25, w4_0, w4_1, w4_2, w4_3, w4_4, w4_5, abs_le]; constructor <;> norm_num
    · simp only [sum_range_succ, sum_range_zero, d30, d31, d32, d33, d34, d35, w4_0, w4_1, w4_2, w4_3, w4_4, w4_5, abs_le]; constructor <;> norm_num
    · simp only [PTree.size, exactWeight]; push_cast; ring

/-- **C82**: the dense output of `rosenbrock4` for `x' = F(x)` differs from the solution by `O(h^4)` everywhere in the step, up to the rounding of the
tabulated coefficients. -/
theorem ros_dense_order {F : V → V} {x0 : V} {t0 : ℝ} (hF : ContDiffAt ℝ 3 F x0) {φ : ℝ → V} (hφ : IsSolution (fun x _ => F x) x0 t0 φ)
    {m : ℝ} (hm : ∀ k, k ≤ 3 → ‖iteratedFDeriv ℝ k F x0‖ ≤ m) {r : ℝ → RosStages V} {x1 : ℝ → V}
    (hr : ∀ᶠ h in 𝓝[≠] (0 : ℝ), IsRosenbrock defaultRosenbrock (fun x _ => F x) (fderiv ℝ F x0 : V →ₗ[ℝ] V) 0 x0 t0 h (r h) (x1 h)) :
    SmallOnStep (1 / 10 ^ 13) m 3 (fun h θ => rosInterpolant defaultRosenbrock ⟨x0, t0, r h⟩ (x1 h) (t0 + h) (t0 + θ * h) - φ (t0 + θ * h)) := by
  have m0 : 0 ≤ m := (norm_nonneg _).trans (hm 0 (by omega))
  have hp := taylor_norm hm
  have E := ros_expansion (N := 2) (by exact_mod_cast hF) hr
  have S := autonomous_expansion (N := 2) (by exact_mod_cast hF) hφ
  have comb : ∀ b : ℕ → ℝ, Exp (fun h => ∑ i ∈ range 6, b i • (if h = 0 then 0 else (r h).get i))
        (tcoef (taylor F x0) fun τ => ∑ i ∈ range 6, b i * RosWeights.T τ i) 3 := fun b =>
      (Exp.sum (range 6) (fun i hi => E i (Finset.mem_range.1 hi)) b).congr (fun _ => rfl) fun s _ => tcoef_sum _ _ _ _ s
  obtain ⟨C1, c1⟩ := IsBigO.bound (comb rosB)
  obtain ⟨C2, c2⟩ := IsBigO.bound (comb rosD2)
  obtain ⟨C3, c3⟩ := IsBigO.bound (comb rosD3)
  obtain ⟨C4, hC4, c4⟩ := IsBigO.exists_nonneg S
  rw [isBigOWith_iff] at c4
  rw [eventually_nhdsWithin_iff] at hr
  obtain ⟨η, hη, hb⟩ := Metric.eventually_nhds_iff_ball.1 (c1.and (c2.and (c3.and (c4.and hr))))
  refine ⟨|C1| + |C2| + |C3| + C4, η, hη, fun h h0 hh θ θ0 θ1 => ?_⟩
  obtain ⟨k1, k2, k3, -, hR⟩ := hb h (by simpa using hh)
  have hs : |θ * h| ≤ |h| := by
    rw [abs_mul, abs_of_nonneg θ0]; nlinarith [abs_nonneg h]
  obtain ⟨-, -, -, k4, -⟩ := hb (θ * h) (by simpa [abs_mul] using (lt_of_le_of_lt hs hh))
  have hR := hR h0
  simp only [if_neg h0, norm_pow, Real.norm_eq_abs] at k1 k2 k3 k4
  have e : rosInterpolant defaultRosenbrock ⟨x0, t0, r h⟩ (x1 h) (t0 + h) (t0 + θ * h) - φ (t0 + θ * h) =
      θ • (∑ i ∈ range 6, rosB i • (r h).get i) + (θ * (1 - θ)) • (∑ i ∈ range 6, rosD2 i • (r h).get i) +
      (θ * (1 - θ) * θ) • (∑ i ∈ range 6, rosD3 i • (r h).get i) - (φ (t0 + θ * h) - x0) := by
    have L1 : (lit 1 : ℝ) = 1 := by simp [lit]
    have hθ : (t0 + θ * h - t0) / (t0 + h - t0) = θ := by
      rw [add_sub_cancel_left, add_sub_cancel_left, mul_div_assoc, div_self h0, mul_one]
    simp only [rosInterpolant, hθ, L1]
    rw [ros_result hR]
    simp only [lin, List.map_cons, List.map_nil, List.sum_cons, List.sum_nil, add_zero, rosCont3, rosCont4, Finset.sum_range_succ,
      Finset.sum_range_zero, RosStages.get, rosD2, rosD3]
    module
  beta_reduce
  rw [e]
  generalize (∑ i ∈ range 6, rosB i • (r h).get i) = X1 at *
  generalize (∑ i ∈ range 6, rosD2 i • (r h).get i) = X2 at *
  generalize (∑ i ∈ range 6, rosD3 i • (r h).get i) = X3 at *
  generalize φ (t0 + θ * h) - x0 = X4 at *
  have hW : ∀ s, θ • tcoef (taylor F x0) (fun τ => ∑ i ∈ range 6, rosB i * RosWeights.T τ i) s +
      (θ * (1 - θ)) • tcoef (taylor F x0) (fun τ => ∑ i ∈ range 6, rosD2 i * RosWeights.T τ i) s +
      (θ * (1 - θ) * θ) • tcoef (taylor F x0) (fun τ => ∑ i ∈ range 6, rosD3 i * RosWeights.T τ i) s -
      θ ^ s • tcoef (taylor F x0) (fun τ => exactWeight τ / (τ.size : ℝ)) s =
      tcoef (taylor F x0) (fun τ => θ * (∑ i ∈ range 6, rosB i * RosWeights.T τ i) + θ * (1 - θ) * (∑ i ∈ range 6, rosD2 i * RosWeights.T τ i) +
        θ * (1 - θ) * θ * (∑ i ∈ range 6, rosD3 i * RosWeights.T τ i) - θ ^ τ.size * (exactWeight τ / (τ.size : ℝ))) s := by
    intro s
    have a1 := tcoef_two (taylor F x0) θ (θ * (1 - θ)) (fun τ => ∑ i ∈ range 6, rosB i * RosWeights.T τ i)
      (fun τ => ∑ i ∈ range 6, rosD2 i * RosWeights.T τ i) s
    rw [a1, tcoef_pow]
    have a2 := tcoef_two (taylor F x0) 1 (θ * (1 - θ) * θ) (fun τ => θ * (∑ i ∈ range 6, rosB i * RosWeights.T τ i) +
      θ * (1 - θ) * (∑ i ∈ range 6, rosD2 i * RosWeights.T τ i)) (fun τ => ∑ i ∈ range 6, rosD3 i * RosWeights.T τ i) s
    simp only [one_smul, one_mul] at a2
    rw [a2]
    have a3 := tcoef_two (taylor F x0) 1 (-1) (fun τ => θ * (∑ i ∈ range 6, rosB i * RosWeights.T τ i) + θ * (1 - θ) * (∑ i ∈ range 6, rosD2 i * RosWeights.T τ i) +
        θ * (1 - θ) * θ * (∑ i ∈ range 6, rosD3 i * RosWeights.T τ i)) (fun τ => θ ^ τ.size * (exactWeight τ / (τ.size : ℝ))) s
    simp only [one_smul, one_mul, neg_one_smul, neg_one_mul, ← sub_eq_add_neg] at a3
    exact a3
  have hN : ∀ s, s < 3 → ‖tcoef (taylor F x0) (fun τ => θ * (∑ i ∈ range 6, rosB i * RosWeights.T τ i) +
      θ * (1 - θ) * (∑ i ∈ range 6, rosD2 i * RosWeights.T τ i) +
        θ * (1 - θ) * θ * (∑ i ∈ range 6, rosD3 i * RosWeights.T τ i) - θ ^ τ.size * (exactWeight τ / (τ.size : ℝ))) (s + 1)‖ ≤
      1 / 10 ^ 13 * m ^ (s + 1) := by
    intro s hs
    refine (norm_tsum_small (δ := 3 * (2 / 10 ^ 15)) hp _ s (by omega) (fun τ hτ => ros_dense_conditions θ0 θ1 τ (by omega)) (by positivity)).trans ?_
    have : 0 ≤ m ^ (s + 1) := by positivity
    nlinarith
  generalize tcoef (taylor F x0) (fun τ => θ * (∑ i ∈ range 6, rosB i * RosWeights.T τ i) +
      θ * (1 - θ) * (∑ i ∈ range 6, rosD2 i * RosWeights.T τ i) +
        θ * (1 - θ) * θ * (∑ i ∈ range 6, rosD3 i * RosWeights.T τ i) - θ ^ τ.size * (exactWeight τ / (τ.size : ℝ))) = W at *
  have z1 : tcoef (taylor F x0) (fun τ => ∑ i ∈ range 6, rosB i * RosWeights.T τ i) 0 = 0 := rfl
  have z2 : tcoef (taylor F x0) (fun τ => ∑ i ∈ range 6, rosD2 i * RosWeights.T τ i) 0 = 0 := rfl
  have z3 : tcoef (taylor F x0) (fun τ => ∑ i ∈ range 6, rosD3 i * RosWeights.T τ i) 0 = 0 := rfl
  have z4 : tcoef (taylor F x0) (fun τ => exactWeight τ / (τ.size : ℝ)) 0 = 0 := rfl
  generalize tcoef (taylor F x0) (fun τ => ∑ i ∈ range 6, rosB i * RosWeights.T τ i) = A1 at *
  generalize tcoef (taylor F x0) (fun τ => ∑ i ∈ range 6, rosD2 i * RosWeights.T τ i) = A2 at *
  generalize tcoef (taylor F x0) (fun τ => ∑ i ∈ range 6, rosD3 i * RosWeights.T τ i) = A3 at *
  generalize tcoef (taylor F x0) (fun τ => exactWeight τ / (τ.size : ℝ)) = A4 at *
  clear e hR comb E S c1 c2 c3 c4 hb hr
  rw [Finset.sum_range_succ', z1, smul_zero, add_zero] at k1
  rw [Finset.sum_range_succ', z2, smul_zero, add_zero] at k2
  rw [Finset.sum_range_succ', z3, smul_zero, add_zero] at k3
  rw [Finset.sum_range_succ', z4, smul_zero, add_zero] at k4
  have split : θ • X1 + (θ * (1 - θ)) • X2 + (θ * (1 - θ) * θ) • X3 - X4 =
      θ • (X1 - ∑ s ∈ range (2 + 1), h ^ (s + 1) • A1 (s + 1)) + (θ * (1 - θ)) • (X2 - ∑ s ∈ range (2 + 1), h ^ (s + 1) • A2 (s + 1)) +
      (θ * (1 - θ) * θ) • (X3 - ∑ s ∈ range (2 + 1), h ^ (s + 1) • A3 (s + 1)) - (X4 - ∑ s ∈ range (2 + 1), (θ * h) ^ (s + 1) • A4 (s + 1)) +
      ∑ s ∈ range 3, h ^ (s + 1) • W (s + 1) := by
    simp only [← hW, Finset.sum_range_succ, Finset.sum_range_zero, mul_pow]
    module
  rw [split]
  have t1 : 0 ≤ θ * (1 - θ) := mul_nonneg θ0 (by linarith)
  have t2 : θ * (1 - θ) ≤ 1 := by nlinarith
  have t3 : 0 ≤ θ * (1 - θ) * θ := mul_nonneg t1 θ0
  have t4 : θ * (1 - θ) * θ ≤ 1 := by nlinarith
  have sc : ∀ (c C : ℝ) (v : V), 0 ≤ c → c ≤ 1 → ‖v‖ ≤ C * |h| ^ (3 + 1) → ‖c • v‖ ≤ |C| * |h| ^ (3 + 1) := by
    intro c C v q0 q1 hv
    rw [norm_smul, Real.norm_eq_abs, abs_of_nonneg q0]
    have : C * |h| ^ (3 + 1) ≤ |C| * |h| ^ (3 + 1) := mul_le_mul_of_nonneg_right (le_abs_self C) (by positivity)
    nlinarith [norm_nonneg v]
  have b1 := sc θ C1 _ θ0 θ1 k1
  have b2 := sc _ C2 _ t1 t2 k2
  have b3 := sc _ C3 _ t3 t4 k3
  have b4 := k4.trans (mul_le_mul_of_nonneg_left (pow_le_pow_left₀ (abs_nonneg _) hs (3 + 1)) hC4)
  have b5 : ‖∑ s ∈ range 3, h ^ (s + 1) • W (s + 1)‖ ≤ 1 / 10 ^ 13 * ∑ s ∈ range 3, (m * |h|) ^ (s + 1) := by
    rw [Finset.mul_sum]
    refine (norm_sum_le _ _).trans (Finset.sum_le_sum fun k hk => ?_)
    rw [norm_smul, norm_pow, Real.norm_eq_abs, mul_pow, ← mul_assoc, mul_comm]
    exact mul_le_mul_of_nonneg_right (hN k (Finset.mem_range.1 hk)) (by positivity)
  refine (norm_add_le _ _).trans ?_
  refine (add_le_add ((norm_sub_le _ _).trans (add_le_add ((norm_add_le _ _).trans (add_le_add ((norm_add_le _ _).trans (add_le_add b1 b2)) b3)) b4)) b5).trans ?_
  exact le_of_eq (by ring)

/-! ## The calls -/

/-- **C82**: `do_step` of `rosenbrock4`, from a state `x0` at time `t0`, with all small step sizes: the result is of fourth order and the error estimate
of third order. -/
theorem rosenbrock4_order {W : Type} {F : V → V} {x0 : V} {t0 : ℝ} (hF : ContDiffAt ℝ 4 F x0) {φ : ℝ → V}
    (hφ : IsSolution (fun x _ => F x) x0 t0 φ) {m : ℝ} (hm : ∀ k, k ≤ 3 → ‖iteratedFDeriv ℝ k F x0‖ ≤ m)
    (solve : ℝ → (V →ₗ[ℝ] V) → V → V) (sys : Sys ℝ V W) (jac : Jac ℝ V W (V →ₗ[ℝ] V))
    (hsys : ∀ x t w v w', sys x t w = .ok v w' → v = F x)
    (hjac : ∀ x t w r w', jac x t w = .ok r w' → r = ((fderiv ℝ F x : V →ₗ[ℝ] V), 0))
    (hsol : ∀ᶠ h in 𝓝[≠] (0 : ℝ), Solves solve (1 / ((defaultRosenbrock (K := ℝ)).gamma * h)) (fderiv ℝ F x0 : V →ₗ[ℝ] V))
    (x out xe : ℕ) (hne : out ≠ xe) (H : Heap ℝ V W) (hx : H.state (.user x) = x0) (H' : ℝ → Heap ℝ V W)
    (run : ∀ h, rosDoStep6 defaultRosenbrock solve sys jac (.user x) t0 (.user out) h (.user xe) H = .ok () (H' h)) :
    SmallUpTo (1 / 10 ^ 14) m 4 (fun h => (H' h).state (.user out) - φ (t0 + h)) ∧
    SmallUpTo (1 / 10 ^ 14) m 3 (fun h => (H' h).state (.user xe)) := by
  have ex : ∀ h, ∃ r w, rosStep defaultRosenbrock solve sys jac x0 t0 h H.world = .ok r w ∧ (H' h).state (.user out) = r.x ℝ ∧
      (H' h).state (.user xe) = r.g6 := by
    intro h
    have A := (ros_do_step defaultRosenbrock solve sys jac x out xe t0 h H).1
    rw [hx, run h] at A
    cases hs : rosStep defaultRosenbrock solve sys jac x0 t0 h H.world with
    | ok r w =>
      rw [hs] at A
      obtain ⟨h', a1, -, a3, a4, -⟩ := A
      injection a1 with _ a1
      subst a1
      exact ⟨r, w, rfl, a3, a4 hne⟩
    | err e w =>
      rw [hs] at A
      obtain ⟨h', a1, -⟩ := A
      cases a1
    | ub => rw [hs] at A; cases A
    | div => rw [hs] at A; cases A
  choose r w hr h1 h2 using ex
  simp only [h1, h2]
  refine ros_nonlinear_order (x1 := fun h => (r h).x ℝ) hF hφ hm ?_
  filter_upwards [hsol] with h hh
  exact ros_step_equations (f := fun x _ => F x) (ft := fun _ _ => 0) (J := fun x _ => (fderiv ℝ F x : V →ₗ[ℝ] V)) defaultRosenbrock solve sys jac
    hsys hjac x0 t0 h _ _ _ hh (hr h)

end

/-! ## An example: `x' = x²`, `x(0) = 1`, with solution `1 / (1 - t)` -/

/-- solution of a scalar linear equation -/
noncomputable def scalarSolve (c : ℝ) (J : ℝ →ₗ[ℝ] ℝ) (b : ℝ) : ℝ := b / (c - J 1)

theorem scalarSolve_solves (J : ℝ →ₗ[ℝ] ℝ) {γ : ℝ} (hγ : γ ≠ 0) : ∀ᶠ h in 𝓝[≠] (0 : ℝ), Solves scalarSolve (1 / (γ * h)) J := by
  have h1 : ∀ᶠ h in 𝓝 (0 : ℝ), 1 - J 1 * (γ * h) ≠ 0 := by
    have : ContinuousAt (fun h : ℝ => 1 - J 1 * (γ * h)) 0 := by fun_prop
    exact this.eventually_ne (by simp)
  filter_upwards [nhdsWithin_le_nhds h1, self_mem_nhdsWithin] with h h2 h3 b
  have h3' : h ≠ 0 := h3
  have h4 : γ * h ≠ 0 := mul_ne_zero hγ h3'
  have h5 : 1 / (γ * h) - J 1 ≠ 0 := by
    intro e
    apply h2
    field_simp at e
    linarith
  have h6 : J (scalarSolve (1 / (γ * h)) J b) = scalarSolve (1 / (γ * h)) J b * J 1 := by
    conv_lhs => rw [← mul_one (scalarSolve (1 / (γ * h)) J b), ← smul_eq_mul, map_smul, smul_eq_mul]
  rw [h6, smul_eq_mul]
  unfold scalarSolve
  rw [mul_comm, ← mul_sub, div_mul_cancel₀ _ h5]

example : ∃ (m : ℝ) (H' : ℝ → Heap ℝ ℝ Unit) (H : Heap ℝ ℝ Unit),
    (∀ h, rosDoStep6 defaultRosenbrock scalarSolve (fun x _ => pure (x * x)) (fun x _ => pure ((fderiv ℝ (fun x : ℝ => x * x) x : ℝ →ₗ[ℝ] ℝ), 0))
      (.user 0) 0 (.user 1) h (.user 2) H = .ok () (H' h)) ∧
    SmallUpTo (1 / 10 ^ 14) m 4 (fun h => (H' h).state (.user 1) - 1 / (1 - (0 + h))) ∧
    SmallUpTo (1 / 10 ^ 14) m 3 (fun h => (H' h).state (.user 2)) := by
  let sys : Sys ℝ ℝ Unit := fun x _ => pure (x * x)
  let jac : Jac ℝ ℝ Unit (ℝ →ₗ[ℝ] ℝ) := fun x _ => pure ((fderiv ℝ (fun x : ℝ => x * x) x : ℝ →ₗ[ℝ] ℝ), 0)
  let H : Heap ℝ ℝ Unit := { state := fun _ => 1, num := fun _ => 0, flag := fun _ => false, nat := fun _ => 0, world := () }
  have ex : ∀ h, ∃ H' : Heap ℝ ℝ Unit, rosDoStep6 defaultRosenbrock scalarSolve sys jac (.user 0) 0 (.user 1) h (.user 2) H = .ok () H' := by
    intro h
    have A := (ros_do_step defaultRosenbrock scalarSolve sys jac 0 1 2 0 h H).1
    obtain ⟨r, hr⟩ : ∃ r, rosStep defaultRosenbrock scalarSolve sys jac (H.state (.user 0)) 0 h H.world = .ok r () := ⟨_, rfl⟩
    rw [hr] at A
    obtain ⟨h', a, -⟩ := A
    exact ⟨h', a⟩
  choose H' hH using ex
  let D : ℕ → ℝ := fun k => ‖iteratedFDeriv ℝ k (fun x : ℝ => x * x) 1‖
  refine ⟨D 0 + D 1 + D 2 + D 3, H', H, hH, ?_⟩
  refine rosenbrock4_order (F := fun x => x * x) (x0 := 1) (t0 := 0) (φ := fun t => 1 / (1 - t)) (by fun_prop) ⟨by norm_num, ?_⟩ ?_
    scalarSolve sys jac ?_ ?_ ?_ 0 1 2 (by norm_num) H rfl H' hH
  · have : ∀ᶠ t in 𝓝 (0 : ℝ), 1 - t ≠ 0 := by
      have : ContinuousAt (fun t : ℝ => 1 - t) 0 := by fun_prop
      exact this.eventually_ne (by norm_num)
    filter_upwards [this] with t ht
    have h1 : HasDerivAt (fun t : ℝ => 1 - t) (-1) t := by simpa using (hasDerivAt_id t).const_sub 1
    have := HasDerivAt.inv h1 ht
    have e : (fun t : ℝ => 1 / (1 - t)) = (fun t : ℝ => 1 - t)⁻¹ := by funext s; simp
    have e' : 1 / (1 - t) * (1 / (1 - t)) = - -1 / (1 - t) ^ 2 := by field_simp
    rw [e]
    rw [e']
    exact this
  · intro k hk
    have n : ∀ i, 0 ≤ D i := fun i => norm_nonneg _
    have := n 0; have := n 1; have := n 2; have := n 3
    show D k ≤ _
    interval_cases k <;> linarith
  · intro x t w v w' h
    simp only [sys, M.pure_apply] at h
    injection h with h _
    exact h.symm
  · intro x t w r w' h
    simp only [jac, M.pure_apply] at h
    injection h with h _
    exact h.symm
  · exact scalarSolve_solves _ (by norm_num [defaultRosenbrock, frac, lit])

end Verif
