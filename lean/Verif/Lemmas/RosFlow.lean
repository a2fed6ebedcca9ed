import Verif.Props.RosenbrockNonlinear
import Verif.Lemmas.UniformOrder
import Verif.Spec.Convergence
import Mathlib.Analysis.Calculus.MeanValue
import Mathlib.Analysis.Calculus.ContDiff.Operations
import Mathlib.Analysis.Normed.Module.FiniteDimension
import Mathlib.Analysis.Normed.Algebra.GelfandFormula

/-!
# The step function of `rosenbrock4` as a smooth function of state and step size
-/

set_option linter.unusedSectionVars false

namespace Verif
open BSeries Asymptotics Filter Topology Finset

section
variable {V : Type} [NormedAddCommGroup V] [NormedSpace ℝ V]

/-- the matrix `1 - γ h F'(x)` of the linear systems -/
noncomputable def rosMatrix (γ : ℝ) (F : V → V) (z : V × ℝ) : V →L[ℝ] V := 1 - (γ * z.2) • fderiv ℝ F z.1

/-- the stages, divided by the step size -/
noncomputable def rosU (γ : ℝ) (a c : ℕ → ℕ → ℝ) (F : V → V) (z : V × ℝ) (i : ℕ) : V :=
  γ • (Ring.inverse (rosMatrix γ F z)) (F (z.1 + z.2 • ∑ j : Fin i, a i j • rosU γ a c F z j) + ∑ j : Fin i, c i j • rosU γ a c F z j)
termination_by i
decreasing_by all_goals exact j.2

theorem rosU_eq (γ : ℝ) (a c : ℕ → ℕ → ℝ) (F : V → V) (z : V × ℝ) (i : ℕ) :
    rosU γ a c F z i = γ • (Ring.inverse (rosMatrix γ F z)) (F (z.1 + z.2 • ∑ j ∈ range i, a i j • rosU γ a c F z j) +
      ∑ j ∈ range i, c i j • rosU γ a c F z j) := by
  rw [rosU, Finset.sum_range, Finset.sum_range]

/-- stages that solve the equations are given by `rosU` -/
theorem rosU_unique {γ : ℝ} {a c : ℕ → ℕ → ℝ} {F : V → V} {x : V} {h : ℝ} (hu : IsUnit (rosMatrix γ F (x, h))) {n : ℕ} {g : ℕ → V}
    (hg : ∀ i < n, g i = γ • ((h • F (x + ∑ j ∈ range i, a i j • g j) + ∑ j ∈ range i, c i j • g j) + h • fderiv ℝ F x (g i))) :
    ∀ i < n, g i = h • rosU γ a c F (x, h) i := by
  intro i
  induction i using Nat.strong_induction_on with
  | _ i ih =>
    intro hi
    have h1 : rosMatrix γ F (x, h) (g i) = γ • (h • F (x + ∑ j ∈ range i, a i j • g j) + ∑ j ∈ range i, c i j • g j) := by
      have := hg i hi
      rw [smul_add] at this
      simp only [rosMatrix, sub_apply, one_apply_eq_self, smul_apply]
      rw [mul_smul]
      exact sub_eq_iff_eq_add.2 this
    have h2 : g i = Ring.inverse (rosMatrix γ F (x, h)) (rosMatrix γ F (x, h) (g i)) := by
      have := Ring.inverse_mul_cancel _ hu
      rw [← mul_apply_eq_comp, this, one_apply_eq_self]
    have s : ∀ b : ℕ → ℝ, ∑ j ∈ range i, b j • g j = h • ∑ j ∈ range i, b j • rosU γ a c F (x, h) j := by
      intro b
      rw [Finset.smul_sum]
      refine Finset.sum_congr rfl fun j hj => ?_
      have := Finset.mem_range.1 hj
      rw [ih j this (by omega), smul_comm]
    rw [h2, h1, s, s, ← smul_add, map_smul, map_smul, rosU_eq, smul_comm]

/-- the stages for the step size zero -/
theorem rosU_zero (γ : ℝ) (a c : ℕ → ℕ → ℝ) (F : V → V) (x : V) (i : ℕ) : rosU γ a c F (x, 0) i = (lowerSolve γ c fun _ => 1) i • F x := by
  induction i using Nat.strong_induction_on with
  | _ i ih =>
    have h1 : rosMatrix γ F (x, 0) = 1 := by simp [rosMatrix]
    rw [rosU_eq, h1, Ring.inverse_one, one_apply_eq_self, lowerSolve_eq, mul_smul, add_smul, one_smul, Finset.sum_smul]
    simp only [zero_smul, add_zero]
    congr 2
    refine Finset.sum_congr rfl fun j hj => ?_
    rw [ih j (Finset.mem_range.1 hj), smul_smul]

variable [CompleteSpace V]

theorem rosMatrix_contDiff {γ : ℝ} {F : V → V} {n : ℕ} (hF : ContDiff ℝ (n + 1 : ℕ) F) : ContDiff ℝ n (rosMatrix γ F) := by
  have h1 : ContDiff ℝ n (fderiv ℝ F) := hF.fderiv_right (by norm_cast)
  unfold rosMatrix
  have h2 : ContDiff ℝ n fun z : V × ℝ => fderiv ℝ F z.1 := h1.comp contDiff_fst
  have h3 : ContDiff ℝ n fun z : V × ℝ => γ * z.2 := contDiff_const.mul contDiff_snd
  exact contDiff_const.sub (h3.smul h2)

theorem rosU_contDiffAt {γ : ℝ} (a c : ℕ → ℕ → ℝ) {F : V → V} {n : ℕ} (hF : ContDiff ℝ (n + 1 : ℕ) F) {z : V × ℝ} (hu : IsUnit (rosMatrix γ F z))
    (i : ℕ) : ContDiffAt ℝ n (fun z => rosU γ a c F z i) z := by
  induction i using Nat.strong_induction_on with
  | _ i ih =>
    have e : (fun z => rosU γ a c F z i) = fun z => γ • (Ring.inverse (rosMatrix γ F z)) (F (z.1 + z.2 • ∑ j ∈ range i, a i j • rosU γ a c F z j) +
      ∑ j ∈ range i, c i j • rosU γ a c F z j) := funext fun z => rosU_eq γ a c F z i
    rw [e]
    have s : ∀ b : ℕ → ℝ, ContDiffAt ℝ n (fun z => ∑ j ∈ range i, b j • rosU γ a c F z j) z := by
      intro b
      exact ContDiffAt.sum fun j hj => (ih j (Finset.mem_range.1 hj)).const_smul (b j)
    have h1 : ContDiffAt ℝ n (fun z => Ring.inverse (rosMatrix γ F z)) z := by
      obtain ⟨u, hu'⟩ := hu
      have := contDiffAt_ringInverse (n := (n : WithTop ℕ∞)) ℝ u
      rw [hu'] at this
      exact this.comp z (rosMatrix_contDiff hF).contDiffAt
    have hF' : ContDiff ℝ n F := hF.of_le (by norm_cast; omega)
    have h2 : ContDiffAt ℝ n (fun z : V × ℝ => F (z.1 + z.2 • ∑ j ∈ range i, a i j • rosU γ a c F z j)) z :=
      hF'.contDiffAt.comp z (contDiffAt_fst.add (contDiffAt_snd.smul (s _)))
    exact (h1.clm_apply (h2.add (s _))).const_smul γ

/-- Taylor's formula, uniformly on a compact set, for a function of `( t , h )` that is smooth for small `h` and whose expansion is known. -/
theorem uniform_expansion {E : Type} [NormedAddCommGroup E] [NormedSpace ℝ E] {p : ℕ} {G : E × ℝ → V} {S : Set E} (hS : IsCompact S) {η : ℝ} (hη : 0 < η)
    (hG : ∀ t ∈ S, ∀ h, |h| ≤ η → ContDiffAt ℝ ((p : WithTop ℕ∞) + 1) G (t, h)) {c : E → ℕ → V} (hc : ∀ t ∈ S, Exp (fun h => G (t, h)) (c t) p) :
    ∃ A, 0 ≤ A ∧ ∀ t ∈ S, ∀ h, |h| ≤ η → ‖G (t, h) - ∑ k ∈ range (p + 1), h ^ k • c t k‖ ≤ A * |h| ^ (p + 1) := by
  have hcont : ContinuousOn (iteratedFDeriv ℝ (p + 1) G) (S ×ˢ Set.Icc (-η) η) := by
    rintro ⟨t, h⟩ ⟨ht, hh⟩
    have := (hG t ht h (abs_le.2 hh)).iteratedFDeriv_right (m := 0) (i := p + 1) (by norm_cast; simp)
    exact this.continuousAt.continuousWithinAt
  obtain ⟨M0, hM0⟩ := (hS.prod isCompact_Icc : IsCompact (S ×ˢ Set.Icc (-η) η)).exists_bound_of_continuousOn hcont
  set A := max M0 0 with hA
  refine ⟨(p.factorial : ℝ)⁻¹ * A, by positivity, ?_⟩
  intro t ht
  -- Taylor's formula along `h`
  have taylor : ∀ h, |h| ≤ η → ‖G (t, h) - ∑ k ∈ range (p + 1), h ^ k • ((k.factorial : ℝ)⁻¹ • iteratedFDeriv ℝ k G (t, 0) fun _ => (0, 1))‖ ≤
      (p.factorial : ℝ)⁻¹ * A * |h| ^ (p + 1) := by
    intro h hh
    have hy : ‖((0, h) : E × ℝ)‖ = |h| := by simp [Prod.norm_def]
    have e3 : ∀ s : ℝ, ((t, 0) + s • (0, h) : E × ℝ) = (t, s * h) := fun s => by simp
    have hsh : ∀ s : ℝ, 0 ≤ s → s ≤ 1 → |s * h| ≤ η := fun s h0 h1 => by
      rw [abs_mul, abs_of_nonneg h0]
      have := abs_nonneg h
      nlinarith
    have hT := map_add_eq_sum_add_integral_iteratedFDeriv (f := G) (x := (t, 0)) (y := (0, h)) (n := p) fun s hs => by
      rw [e3]
      exact_mod_cast hG t ht _ (hsh s hs.1 hs.2)
    have e0 : ((t, 0) : E × ℝ) + (0, h) = (t, h) := by simp
    rw [e0] at hT
    have e1 : ∀ k, (k.factorial : ℝ)⁻¹ • iteratedFDeriv ℝ k G (t, 0) (fun _ => ((0, h) : E × ℝ)) =
        h ^ k • ((k.factorial : ℝ)⁻¹ • iteratedFDeriv ℝ k G (t, 0) fun _ => (0, 1)) := by
      intro k
      have : (fun _ : Fin k => ((0, h) : E × ℝ)) = fun i => (fun _ => h : Fin k → ℝ) i • (fun _ => ((0, 1) : E × ℝ)) i := by
        funext i; simp
      rw [this, ContinuousMultilinearMap.map_smul_univ]
      simp only [prod_const, card_univ, Fintype.card_fin]
      rw [smul_comm]
    have e2 : G (t, h) - ∑ k ∈ range (p + 1), h ^ k • ((k.factorial : ℝ)⁻¹ • iteratedFDeriv ℝ k G (t, 0) fun _ => (0, 1)) =
        (p.factorial : ℝ)⁻¹ • ∫ s in (0 : ℝ)..1, (1 - s) ^ p • iteratedFDeriv ℝ (p + 1) G ((t, 0) + s • (0, h)) (fun _ => (0, h)) := by
      rw [hT, sum_congr rfl fun k _ => e1 k, add_sub_cancel_left]
    rw [e2, norm_smul, norm_inv, RCLike.norm_natCast, mul_assoc]
    refine mul_le_mul_of_nonneg_left ?_ (by positivity)
    have hb := intervalIntegral.norm_integral_le_of_norm_le_const (a := (0 : ℝ)) (b := 1) (C := A * |h| ^ (p + 1))
      (f := fun s => (1 - s) ^ p • iteratedFDeriv ℝ (p + 1) G ((t, 0) + s • (0, h)) (fun _ => (0, h))) (fun s hs => ?_)
    · simpa using hb
    · rw [Set.uIoc_of_le zero_le_one] at hs
      rw [norm_smul, norm_pow, Real.norm_eq_abs, abs_of_nonneg (by linarith [hs.2])]
      have a1 : (1 - s) ^ p ≤ 1 := pow_le_one₀ (by linarith [hs.2]) (by linarith [hs.1])
      have hin : ((t, 0) + s • (0, h) : E × ℝ) ∈ S ×ˢ Set.Icc (-η) η := by
        rw [e3]
        exact ⟨ht, abs_le.1 (hsh s hs.1.le hs.2)⟩
      have a2 : ‖iteratedFDeriv ℝ (p + 1) G ((t, 0) + s • (0, h)) (fun _ => (0, h))‖ ≤ A * |h| ^ (p + 1) := by
        refine ((iteratedFDeriv ℝ (p + 1) G _).le_opNorm _).trans ?_
        rw [prod_const, card_univ, Fintype.card_fin, hy]
        exact mul_le_mul_of_nonneg_right ((hM0 _ hin).trans (le_max_left _ _)) (by positivity)
      calc (1 - s) ^ p * ‖iteratedFDeriv ℝ (p + 1) G ((t, 0) + s • (0, h)) (fun _ => (0, h))‖
          ≤ 1 * (A * |h| ^ (p + 1)) := mul_le_mul a1 a2 (norm_nonneg _) zero_le_one
        _ = _ := one_mul _
  have hz := poly_vanish (p + 1) (fun k => (k.factorial : ℝ)⁻¹ • iteratedFDeriv ℝ k G (t, 0) (fun _ => (0, 1)) - c t k) (by
    have h1 : (fun h : ℝ => G (t, h) - ∑ k ∈ range (p + 1), h ^ k • ((k.factorial : ℝ)⁻¹ • iteratedFDeriv ℝ k G (t, 0) fun _ => (0, 1)))
        =O[𝓝 0] fun h : ℝ => h ^ (p + 1) := by
      refine IsBigO.of_bound ((p.factorial : ℝ)⁻¹ * A) ?_
      filter_upwards [Metric.ball_mem_nhds (0 : ℝ) hη] with h hh
      rw [norm_pow, Real.norm_eq_abs]
      exact taylor h (by rw [mem_ball_zero_iff] at hh; exact hh.le)
    have h2 : (fun h : ℝ => G (t, h) - ∑ k ∈ range (p + 1), h ^ k • c t k) =O[𝓝 0] fun h : ℝ => h ^ (p + 1) := hc t ht
    refine ((h2.sub h1).congr_left fun h => ?_).mono nhdsWithin_le_nhds
    simp only [smul_sub, sum_sub_distrib]
    abel)
  intro h hh
  have := taylor h hh
  rwa [sum_congr rfl fun k hk => by rw [sub_eq_zero.1 (hz k (mem_range.1 hk))]] at this

/-! ## The step -/

open RosWeights

/-- the increment of the state, divided by the step size -/
noncomputable def rosR (F : V → V) (z : V × ℝ) : V :=
  ∑ i ∈ range 6, rosB i • rosU (defaultRosenbrock (K := ℝ)).gamma (rosA defaultRosenbrock) (rosC defaultRosenbrock) F z i

/-- the matrix of the linear systems -/
noncomputable abbrev rosN (F : V → V) (z : V × ℝ) : V →L[ℝ] V := rosMatrix (defaultRosenbrock (K := ℝ)).gamma F z

theorem rosR_contDiffAt {F : V → V} {n : ℕ} (hF : ContDiff ℝ (n + 1 : ℕ) F) {z : V × ℝ} (hu : IsUnit (rosN F z)) : ContDiffAt ℝ n (rosR F) z :=
  ContDiffAt.sum fun i _ => (rosU_contDiffAt _ _ hF hu i).const_smul (rosB i)

theorem rosR_zero (F : V → V) (x : V) : rosR F (x, 0) = (∑ i ∈ range 6, rosB i * T (.leaf ()) i) • F x := by
  unfold rosR
  rw [Finset.sum_smul]
  refine Finset.sum_congr rfl fun i _ => ?_
  rw [rosU_zero, smul_smul]
  rfl

theorem rosR_weight : |∑ i ∈ range 6, rosB i * T (.leaf ()) i| ≤ 2 := by
  have := ros_conditions (.leaf ()) (by simp [PTree.size])
  simp only [exactWeight, PTree.size, Nat.cast_one, div_one] at this
  rw [abs_le] at this ⊢
  constructor <;> linarith [this.1, this.2]

attribute [local irreducible] rosR

/-- near the step size zero the matrix is invertible and the increment depends on the state in a Lipschitz way -/
theorem ros_tube {F : V → V} (hF : ContDiff ℝ 2 F) {L : ℝ} (hL : 0 ≤ L) (hlip : ∀ x y, ‖F x - F y‖ ≤ L * ‖x - y‖) {B : Set V} (hB : IsCompact B) :
    ∃ η, 0 < η ∧ ∀ x ∈ B, ∀ h, |h| ≤ η → IsUnit (rosN F (x, h)) ∧ ‖(fderiv ℝ (rosR F) (x, h)).comp (ContinuousLinearMap.inl ℝ V ℝ)‖ ≤ 2 * L + 1 := by
  have hF' : ContDiff ℝ (1 + 1 : ℕ) F := by exact_mod_cast hF
  have key : ∀ᶠ h in 𝓝 (0 : ℝ), ∀ x ∈ B, IsUnit (rosN F (x, h)) ∧ ‖(fderiv ℝ (rosR F) (x, h)).comp (ContinuousLinearMap.inl ℝ V ℝ)‖ ≤ 2 * L + 1 := by
    refine hB.eventually_forall_of_forall_eventually
      (P := fun h x => IsUnit (rosN F (x, h)) ∧ ‖(fderiv ℝ (rosR F) (x, h)).comp (ContinuousLinearMap.inl ℝ V ℝ)‖ ≤ 2 * L + 1) fun x _ => ?_
    have u0 : IsUnit (rosN F (x, 0)) := by simp [rosN, rosMatrix]
    have hc := rosR_contDiffAt hF' u0
    have hd : fderiv ℝ (rosR F) (x, 0) ∘L ContinuousLinearMap.inl ℝ V ℝ = (∑ i ∈ range 6, rosB i * T (.leaf ()) i) • fderiv ℝ F x := by
      have h1 : HasFDerivAt (fun y : V => rosR F (y, 0)) (fderiv ℝ (rosR F) (x, 0) ∘L ContinuousLinearMap.inl ℝ V ℝ) x := by
        have d1 := (hc.differentiableAt (by norm_num)).hasFDerivAt
        exact HasFDerivAt.comp (g := rosR F) (f := fun y : V => (y, (0 : ℝ))) x d1 (hasFDerivAt_prodMk_left x (0 : ℝ))
      have h2 : HasFDerivAt (fun y : V => rosR F (y, 0)) ((∑ i ∈ range 6, rosB i * T (.leaf ()) i) • fderiv ℝ F x) x := by
        simp only [rosR_zero]
        exact ((hF.differentiable (by norm_num) x).hasFDerivAt).const_smul _
      exact h1.unique h2
    have hn : ‖fderiv ℝ (rosR F) (x, 0) ∘L ContinuousLinearMap.inl ℝ V ℝ‖ < 2 * L + 1 := by
      rw [hd, norm_smul, Real.norm_eq_abs]
      have h1 := rosR_weight
      have h2 : ‖fderiv ℝ F x‖ ≤ L := norm_fderiv_le_of_lip' ℝ hL (Eventually.of_forall fun y => hlip y x)
      nlinarith [norm_nonneg (fderiv ℝ F x), abs_nonneg (∑ i ∈ range 6, rosB i * T (.leaf ()) i)]
    have hs : Tendsto (fun z : ℝ × V => (z.2, z.1)) (𝓝 (0, x)) (𝓝 (x, 0)) := (continuous_swap.tendsto _)
    have c1 : ∀ᶠ z in 𝓝 (x, (0 : ℝ)), IsUnit (rosN F z) :=
      (rosMatrix_contDiff hF').continuous.continuousAt.eventually (Units.isOpen.mem_nhds u0)
    have c2 : ContinuousAt (fun z => (fderiv ℝ (rosR F) z).comp (ContinuousLinearMap.inl ℝ V ℝ)) (x, (0 : ℝ)) := by
      have : ContinuousAt (fderiv ℝ (rosR F)) (x, (0 : ℝ)) := (hc.fderiv_right (m := 0) (by norm_num)).continuousAt
      exact this.clm_comp continuousAt_const
    have c3 := c2.norm.eventually (gt_mem_nhds hn)
    exact (hs.eventually (c1.and c3)).mono fun z hz => ⟨hz.1, hz.2.le⟩
  obtain ⟨η, hη, h⟩ := Metric.eventually_nhds_iff_ball.1 key
  refine ⟨η / 2, by positivity, fun x hx s hs => h s ?_ x hx⟩
  rw [mem_ball_zero_iff, Real.norm_eq_abs]
  linarith

/-- Lipschitz continuity of the increment on convex compact sets -/
theorem ros_lipschitz {F : V → V} (hF : ContDiff ℝ 2 F) {Λ η : ℝ} {B : Set V} (hconv : Convex ℝ B)
    (hB : ∀ x ∈ B, ∀ h, |h| ≤ η → IsUnit (rosN F (x, h)) ∧ ‖(fderiv ℝ (rosR F) (x, h)).comp (ContinuousLinearMap.inl ℝ V ℝ)‖ ≤ Λ)
    {x y : V} (hx : x ∈ B) (hy : y ∈ B) {h : ℝ} (hh : |h| ≤ η) : ‖rosR F (x, h) - rosR F (y, h)‖ ≤ Λ * ‖x - y‖ := by
  have hF' : ContDiff ℝ (1 + 1 : ℕ) F := by exact_mod_cast hF
  refine hconv.norm_image_sub_le_of_norm_hasFDerivWithin_le (f := fun z => rosR F (z, h))
    (f' := fun z => fderiv ℝ (rosR F) (z, h) ∘L ContinuousLinearMap.inl ℝ V ℝ) (fun z hz => ?_) (fun z hz => (hB z hz h hh).2) hy hx
  have d1 := ((rosR_contDiffAt hF' (hB z hz h hh).1).differentiableAt (by norm_num)).hasFDerivAt
  exact (HasFDerivAt.comp (g := rosR F) (f := fun y : V => (y, h)) z d1 (hasFDerivAt_prodMk_left z h)).hasFDerivWithinAt

/-- the expansion of the local error -/
theorem ros_error_exp {F : V → V} {φ : ℝ → V} {t : ℝ} (hF : ContDiff ℝ 4 F) (hφ : IsSolution (fun x _ => F x) (φ t) t φ) {m : ℝ}
    (hm : ∀ k, k ≤ 3 → ‖iteratedFDeriv ℝ k F (φ t)‖ ≤ m) :
    ∃ c : ℕ → V, Exp (fun h => φ t + h • rosR F (φ t, h) - φ (t + h)) c 4 ∧ c 0 = 0 ∧ ∀ k < 4, ‖c (k + 1)‖ ≤ 1 / 10 ^ 14 * m ^ (k + 1) := by
  have m0 : 0 ≤ m := (norm_nonneg _).trans (hm 0 (by omega))
  have hp := taylor_norm hm
  set γ := (defaultRosenbrock (K := ℝ)).gamma with hγ
  have hu : ∀ᶠ h in 𝓝 (0 : ℝ), IsUnit (rosN F (φ t, h)) := by
    have c : ContinuousAt (fun h : ℝ => rosN F (φ t, h)) 0 := by
      simp only [rosN, rosMatrix]
      fun_prop
    exact c.eventually (Units.isOpen.mem_nhds (by simp [rosN, rosMatrix]))
  have E : ∀ i, i < 6 → Exp (fun h => h • rosU γ (rosA defaultRosenbrock) (rosC defaultRosenbrock) F (φ t, h) i)
      (tcoef (taylor F (φ t)) fun τ => T τ i) (3 + 1) := by
    refine ros_stage_expand (f := F) (taylorAt_of_contDiffAt (by exact_mod_cast hF.contDiffAt)) (taylor_linear F (φ t)) γ _ _ 6
      (g := fun i h => h • rosU γ (rosA defaultRosenbrock) (rosC defaultRosenbrock) F (φ t, h) i) (fun i hi => ?_)
    filter_upwards [hu] with h hh
    set U := rosU γ (rosA defaultRosenbrock) (rosC defaultRosenbrock) F (φ t, h) with hU
    have s : ∀ b : ℕ → ℝ, ∑ j ∈ range i, b j • h • U j = h • ∑ j ∈ range i, b j • U j := by
      intro b
      rw [Finset.smul_sum]
      exact Finset.sum_congr rfl fun j _ => smul_comm _ _ _
    have e := rosU_eq γ (rosA defaultRosenbrock) (rosC defaultRosenbrock) F (φ t, h) i
    have h2 : rosN F (φ t, h) (U i) = γ • (F (φ t + h • ∑ j ∈ range i, rosA (defaultRosenbrock (K := ℝ)) i j • U j) +
        ∑ j ∈ range i, rosC (defaultRosenbrock (K := ℝ)) i j • U j) := by
      rw [hU, e, map_smul, ← mul_apply_eq_comp, Ring.mul_inverse_cancel _ hh, one_apply_eq_self]
    simp only [rosN, rosMatrix, sub_apply, one_apply_eq_self, smul_apply] at h2
    rw [s, s, map_smul]
    rw [← hγ] at h2
    have h3 := sub_eq_iff_eq_add.1 h2
    generalize fderiv ℝ F (φ t) (U i) = D at h3 ⊢
    rw [h3]
    simp only [smul_add, smul_smul]
    ring_nf
  have S := autonomous_expansion (N := 3) (by exact_mod_cast hF.contDiffAt) hφ
  have h1 : Exp (fun h => ∑ i ∈ range 6, rosB i • (h • rosU γ (rosA defaultRosenbrock) (rosC defaultRosenbrock) F (φ t, h) i))
      (tcoef (taylor F (φ t)) fun τ => ∑ i ∈ range 6, rosB i * T τ i) 4 :=
    (Exp.sum (range 6) (fun i hi => E i (Finset.mem_range.1 hi)) rosB).congr (fun _ => rfl) fun s _ => tcoef_sum _ _ _ _ s
  have h2 := ((h1.smul 1).add (S.smul (-1))).congr (fun _ => rfl) fun s _ => tcoef_two _ _ _ _ _ s
  refine ⟨_, h2.congr (fun h => ?_) fun _ _ => rfl, rfl, fun k hk => ?_⟩
  · rw [one_smul, neg_one_smul, rosR, Finset.smul_sum]
    rw [Finset.sum_congr rfl fun i _ => smul_comm (rosB i) h _]
    abel
  · refine (norm_tsum_small (δ := 1 / 10 ^ 15) hp _ k (by omega) (fun τ hτ => ?_) (by positivity)).trans ?_
    · have := ros_conditions τ (by omega)
      rwa [one_mul, neg_one_mul, ← sub_eq_add_neg]
    · have : 0 ≤ m ^ (k + 1) := by positivity
      nlinarith

/-- the local error, uniformly along the solution -/
theorem ros_local_error {F : V → V} (hF : ContDiff ℝ 6 F) {φ : ℝ → V} (hφ : IsFlowLine (fun x _ => F x) φ) {a b m η : ℝ} (hη : 0 < η)
    (hm : ∀ t ∈ Set.Icc a b, ∀ k, k ≤ 3 → ‖iteratedFDeriv ℝ k F (φ t)‖ ≤ m)
    (hu : ∀ t ∈ Set.Icc a b, ∀ h, |h| ≤ η → IsUnit (rosN F (φ t, h))) :
    ∃ A, 0 ≤ A ∧ ∀ t ∈ Set.Icc a b, ∀ h, |h| ≤ η → ‖φ t + h • rosR F (φ t, h) - φ (t + h)‖ ≤
      1 / 10 ^ 14 * (∑ k ∈ range 4, (m * |h|) ^ (k + 1)) + A * |h| ^ 5 := by
  have hF' : ContDiff ℝ (5 + 1 : ℕ) F := by exact_mod_cast hF
  have hφs : ContDiff ℝ (4 + 1 : ℕ) φ := by
    refine solution_smooth (f := fun x _ => F x) (n := 4) ?_ hφ
    exact (hF.of_le (by norm_num)).comp contDiff_fst
  have hsol : ∀ t, IsSolution (fun x _ => F x) (φ t) t φ := fun t => ⟨rfl, Eventually.of_forall hφ⟩
  choose! c hc using fun t (ht : t ∈ Set.Icc a b) => ros_error_exp (hF.of_le (by norm_num)) (hsol t) (hm t ht)
  obtain ⟨A, hA, h1⟩ := uniform_expansion (p := 4) (G := fun z : ℝ × ℝ => φ z.1 + z.2 • rosR F (φ z.1, z.2) - φ (z.1 + z.2)) (S := Set.Icc a b) isCompact_Icc hη
    (fun t ht h hh => by
      have p1 : ContDiffAt ℝ (5 : ℕ) (fun z : ℝ × ℝ => φ z.1) (t, h) := hφs.contDiffAt.comp _ contDiffAt_fst
      have p2 : ContDiffAt ℝ (5 : ℕ) (fun z : ℝ × ℝ => rosR F (φ z.1, z.2)) (t, h) :=
        ContDiffAt.comp (g := rosR F) (f := fun z : ℝ × ℝ => (φ z.1, z.2)) (t, h) (rosR_contDiffAt hF' (z := (φ t, h)) (hu t ht h hh)) (p1.prodMk contDiffAt_snd)
      have p3 : ContDiffAt ℝ (5 : ℕ) (fun z : ℝ × ℝ => φ (z.1 + z.2)) (t, h) := hφs.contDiffAt.comp _ (contDiffAt_fst.add contDiffAt_snd)
      exact_mod_cast (p1.add (contDiffAt_snd.smul p2)).sub p3) (c := c) (fun t ht => (hc t ht).1)
  refine ⟨A, hA, fun t ht h hh => ?_⟩
  have h2 := h1 t ht h hh
  dsimp only at h2
  rw [show |h| ^ (4 + 1) = |h| ^ 5 from rfl] at h2
  rw [Finset.sum_range_succ', (hc t ht).2.1, smul_zero, add_zero] at h2
  have h3 : ‖∑ k ∈ range 4, h ^ (k + 1) • c t (k + 1)‖ ≤ 1 / 10 ^ 14 * ∑ k ∈ range 4, (m * |h|) ^ (k + 1) := by
    rw [Finset.mul_sum]
    refine (norm_sum_le _ _).trans (Finset.sum_le_sum fun k hk => ?_)
    rw [norm_smul, norm_pow, Real.norm_eq_abs, mul_pow, ← mul_assoc, mul_comm]
    exact mul_le_mul_of_nonneg_right ((hc t ht).2.2 k (Finset.mem_range.1 hk)) (by positivity)
  have h4 := norm_add_le (φ t + h • rosR F (φ t, h) - φ (t + h) - ∑ k ∈ range 4, h ^ (k + 1) • c t (k + 1)) (∑ k ∈ range 4, h ^ (k + 1) • c t (k + 1))
  rw [sub_add_cancel] at h4
  linarith

end

end Verif
