import Verif.Spec.RosenbrockRun
import Verif.Lemmas.RosFlow
import Verif.Props.ImplicitEulerRun
import Mathlib.Analysis.SpecialFunctions.Trigonometric.ArctanDeriv
import Mathlib.Analysis.SpecialFunctions.Trigonometric.Bounds

/-!
# C90: integrations with `rosenbrock4` converge with order four
-/

namespace Verif
open BSeries Filter Topology Finset

/-- An action that always returns. -/
def AlwaysReturns {W α : Type} (m : M W α) : Prop := ∀ w, ∃ a w', m w = .ok a w'

theorem AlwaysReturns.bind {W α β : Type} {m : M W α} {f : α → M W β} (h : AlwaysReturns m) (hf : ∀ a, AlwaysReturns (f a)) : AlwaysReturns (m >>= f) := by
  intro w
  obtain ⟨a, w', e⟩ := h w
  obtain ⟨b, w'', e'⟩ := hf a w'
  exact ⟨b, w'', (M.bind_ok e f).trans e'⟩

section
variable {V W : Type} [NormedAddCommGroup V] [NormedSpace ℝ V]

/-- The step returns. -/
theorem rosStep_returns {F : V → V} (solve : ℝ → (V →ₗ[ℝ] V) → V → V) {sys : Sys ℝ V W} (hs : Evaluates sys fun x _ => F x)
    {jac : Jac ℝ V W (V →ₗ[ℝ] V)} (hj : Differentiates jac F) (x : V) (t h : ℝ) : AlwaysReturns (rosStep defaultRosenbrock solve sys jac x t h) := by
  have H : ∀ y s, AlwaysReturns (sys y s) := fun y s w => by
    obtain ⟨w', e⟩ := hs y s w
    exact ⟨_, w', e⟩
  have J : ∀ y s, AlwaysReturns (jac y s) := fun y s w => by
    obtain ⟨w', e⟩ := hj y s w
    exact ⟨_, w', e⟩
  unfold rosStep
  exact (H _ _).bind fun _ => (J _ _).bind fun _ => (H _ _).bind fun _ => (H _ _).bind fun _ => (H _ _).bind fun _ => (H _ _).bind fun _ =>
    (H _ _).bind fun _ w => ⟨_, w, rfl⟩

variable [CompleteSpace V]

/-- The result of a step, if the matrix is regular. -/
theorem ros_step_value {F : V → V} {solve : ℝ → (V →ₗ[ℝ] V) → V → V} (hsol : SolvesRegular solve) {sys : Sys ℝ V W}
    (hs : Evaluates sys fun x _ => F x) {jac : Jac ℝ V W (V →ₗ[ℝ] V)} (hj : Differentiates jac F) {x : V} (t : ℝ) {h : ℝ} (hh : h ≠ 0)
    (hu : IsUnit (rosN F (x, h))) (w : W) : ∃ r w', rosStep defaultRosenbrock solve sys jac x t h w = .ok r w' ∧ r.x ℝ = x + h • rosR F (x, h) := by
  obtain ⟨r, w', e⟩ := rosStep_returns solve hs hj x t h w
  refine ⟨r, w', e, ?_⟩
  have hγ : (defaultRosenbrock (K := ℝ)).gamma ≠ 0 := by norm_num [defaultRosenbrock, frac, lit]
  have hc : (defaultRosenbrock (K := ℝ)).gamma * h ≠ 0 := mul_ne_zero hγ hh
  have hreg : IsUnit ((1 / ((defaultRosenbrock (K := ℝ)).gamma * h)) • (1 : Module.End ℝ V) - (fderiv ℝ F x : V →ₗ[ℝ] V)) := by
    have h1 := (hu.map (ContinuousLinearMap.toLinearMapRingHom : (V →L[ℝ] V) →+* V →ₗ[ℝ] V)).smul (Units.mk0 (1 / ((defaultRosenbrock (K := ℝ)).gamma * h)) (one_div_ne_zero hc))
    convert h1 using 1
    ext v
    have e1 : h⁻¹ * (defaultRosenbrock (K := ℝ)).gamma⁻¹ * ((defaultRosenbrock (K := ℝ)).gamma * h) = 1 := by field_simp
    simp [rosN, rosMatrix, Units.smul_def, smul_sub, smul_smul, e1]
  have eqs := ros_step_equations (f := fun x _ => F x) (ft := fun _ _ => 0) (J := fun x _ => (fderiv ℝ F x : V →ₗ[ℝ] V)) defaultRosenbrock solve sys jac
    (fun y s w v w' e => by
      obtain ⟨w'', e'⟩ := hs y s w
      rw [e] at e'
      injection e')
    (fun y s w v w' e => by
      obtain ⟨w'', e'⟩ := hj y s w
      rw [e] at e'
      injection e') x t h w w' r (hsol _ _ hreg) e
  have g := rosU_unique hu (n := 6) (g := r.get) (ros_stage_equations hγ hh eqs)
  rw [ros_result eqs, rosR, Finset.smul_sum]
  congr 1
  refine Finset.sum_congr rfl fun i hi => ?_
  rw [g i (Finset.mem_range.1 hi), smul_comm]

variable [FiniteDimensional ℝ V]

/-- **C90**.  The integrate functions with `rosenbrock4` converge with order four, up to the rounding of the tabulated coefficients of the method: for every
right hand side that does not depend on the time, is six times continuously differentiable and Lipschitz continuous with constant `L`, and every solution `φ`,
when the first three derivatives of the right hand side along the solution are bounded by `m`. -/
theorem rosenbrock4_converges {F : V → V} (hF : ContDiff ℝ 6 F) {L : ℝ} (hL : 0 ≤ L) (hlip : ∀ x y, ‖F x - F y‖ ≤ L * ‖x - y‖) {φ : ℝ → V}
    (hφ : IsFlowLine (fun x _ => F x) φ) {solve : ℝ → (V →ₗ[ℝ] V) → V → V} (hsol : SolvesRegular solve) {sys : Sys ℝ V W}
    (hs : Evaluates sys fun x _ => F x) {jac : Jac ℝ V W (V →ₗ[ℝ] V)} (hj : Differentiates jac F) {a b m : ℝ}
    (hm : ∀ t ∈ Set.Icc (a - 2) (b + 2), ∀ k, k ≤ 3 → ‖iteratedFDeriv ℝ k F (φ t)‖ ≤ m) :
    ConvergesOn a b 4 (6 / 10 ^ 14 * m * (b - a + 1) * Real.exp ((2 * L + 1) * (b - a + 1)))
      (stepperObject fun l t dt => rosDoStep1 defaultRosenbrock solve sys jac l t dt) φ := by
  rcases lt_or_ge b a with hab | hab
  · intro R
    exact ⟨0, 1, one_pos, fun eps t0 t1 dt x0 q w l _ _ ht0 => absurd (ht0.1.trans ht0.2) (not_le.2 hab)⟩
  have hm0 : 0 ≤ m := (norm_nonneg _).trans (hm a ⟨by linarith, by linarith⟩ 0 (by omega))
  have := converges_on_of_steps (st := stepperObject fun l t dt => rosDoStep1 defaultRosenbrock solve sys jac l t dt) (φ := φ) (a := a) (b := b) (p := 4)
    (Λ := 2 * L + 1) (D := 2 / 10 ^ 14 * m) (by norm_num) (by positivity) (by positivity) fun E hE => by
    have hcont : Continuous φ := continuous_iff_continuousAt.2 fun t => (hφ t).continuousAt
    obtain ⟨ρ, hρ⟩ := (isCompact_Icc : IsCompact (Set.Icc (a - 2) (b + 2))).exists_bound_of_continuousOn hcont.continuousOn
    have : ProperSpace V := FiniteDimensional.proper ℝ V
    obtain ⟨η, hη, hB⟩ := ros_tube (hF.of_le (by norm_num)) hL hlip (isCompact_closedBall (0 : V) (ρ + E))
    have hin : ∀ t ∈ Set.Icc (a - 2) (b + 2), ∀ x, ‖x - φ t‖ ≤ E → x ∈ Metric.closedBall (0 : V) (ρ + E) := by
      intro t ht x hx
      rw [mem_closedBall_zero_iff]
      have := norm_add_le (φ t) (x - φ t)
      rw [add_sub_cancel] at this
      linarith [hρ t ht]
    have hin0 : ∀ t ∈ Set.Icc (a - 2) (b + 2), φ t ∈ Metric.closedBall (0 : V) (ρ + E) := fun t ht => hin t ht _ (by simpa using hE)
    obtain ⟨A, hA, hloc⟩ := ros_local_error hF hφ hη hm fun t ht h hh => (hB _ (hin0 t ht) h hh).1
    refine ⟨A, min η (1 / (2 * m + 1)), hA, lt_min hη (by positivity), ?_⟩
    intro x t h hne hh ht _ hx
    have hh1 : |h| ≤ η := hh.trans (min_le_left _ _)
    have hh2 : m * |h| ≤ 1 / 2 := by
      have := hh.trans (min_le_right _ _)
      rw [le_div_iff₀ (by positivity)] at this
      nlinarith [abs_nonneg h]
    refine ⟨x + h • rosR F (x, h), fun q w l => ?_, ?_⟩
    · obtain ⟨r, w', e, hr⟩ := ros_step_value hsol hs hj t hne (hB x (hin t ht x hx) h hh1).1 w
      have hX : ((q.set (.user 0) x).withWorld w).state (.user 0) = x := by simp [Heap.withWorld, Heap.set]
      have H := (ros_do_step defaultRosenbrock solve sys jac 0 0 0 t h ((q.set (.user 0) x).withWorld w)).2
      rw [hX, show ((q.set (.user 0) x).withWorld w).world = w from rfl, e] at H
      obtain ⟨h', r1, r2, r3, -⟩ := H
      refine ⟨h', h'.world, ?_⟩
      have r1' : rosDoStep1 defaultRosenbrock solve sys jac (.user 0) t h ((q.set (.user 0) x).withWorld w) = .ok () h' := r1
      simp only [stepperObject, r1', r3, hr]
    · have l1 := ros_lipschitz (hF.of_le (by norm_num)) (convex_closedBall (0 : V) (ρ + E)) hB (hin t ht x hx) (hin0 t ht) hh1
      have l2 := hloc t ht h hh1
      have e : x + h • rosR F (x, h) - φ (t + h) = (x - φ t) + h • (rosR F (x, h) - rosR F (φ t, h)) + (φ t + h • rosR F (φ t, h) - φ (t + h)) := by
        rw [smul_sub]; abel
      have l3 : ∑ k ∈ range 4, (m * |h|) ^ (k + 1) ≤ 2 * (m * |h|) := by
        have s0 : 0 ≤ m * |h| := by positivity
        set s := m * |h|
        simp only [sum_range_succ, sum_range_zero]
        have s2 : s ^ 2 ≤ s / 2 := by nlinarith
        have s3 : s ^ 3 ≤ s / 4 := by nlinarith
        have s4 : s ^ 4 ≤ s / 8 := by nlinarith
        norm_num
        linarith
      rw [e]
      refine (norm_add_le _ _).trans ((add_le_add (norm_add_le _ _) l2).trans ?_)
      rw [norm_smul, Real.norm_eq_abs]
      have l4 : |h| * ‖rosR F (x, h) - rosR F (φ t, h)‖ ≤ |h| * ((2 * L + 1) * ‖x - φ t‖) := mul_le_mul_of_nonneg_left l1 (abs_nonneg h)
      have e5 : |h| * (2 / 10 ^ 14 * m + A * |h| ^ 4) = 2 / 10 ^ 14 * (m * |h|) + A * |h| ^ 5 := by ring
      rw [e5]
      nlinarith
  convert this using 1
  ring

end

/-! ## An example: `x' = sin x` -/

theorem scalarSolve_regular : SolvesRegular scalarSolve := by
  intro c J hu b
  have hJ : ∀ v : ℝ, J v = v * J 1 := fun v => by
    conv_lhs => rw [← mul_one v, ← smul_eq_mul, map_smul, smul_eq_mul]
  have h5 : c - J 1 ≠ 0 := by
    intro h0
    obtain ⟨u, hu⟩ := hu
    have h1 : (u : Module.End ℝ ℝ) 1 = 0 := by
      rw [hu]
      simp [h0]
    have h2 : (u⁻¹ : (Module.End ℝ ℝ)ˣ).val ((u : Module.End ℝ ℝ) 1) = 1 := by
      rw [← Module.End.mul_apply, Units.inv_mul, Module.End.one_apply]
    rw [h1, map_zero] at h2
    exact zero_ne_one h2
  rw [hJ, smul_eq_mul]
  unfold scalarSolve
  rw [mul_comm, ← mul_sub, div_mul_cancel₀ _ h5]

/-- `2 arctan exp t` solves `x' = sin x` -/
theorem sin_flow : IsFlowLine (fun x _ => Real.sin x) fun t => 2 * Real.arctan (Real.exp t) := by
  intro t
  have h := ((Real.hasDerivAt_exp t).arctan).const_mul 2
  refine HasDerivAt.congr_deriv h ?_
  dsimp only
  rw [Real.sin_two_mul, Real.sin_arctan, Real.cos_arctan]
  have h0 : (0 : ℝ) < 1 + Real.exp t ^ 2 := by positivity
  have h1 := Real.mul_self_sqrt h0.le
  have h2 : Real.sqrt (1 + Real.exp t ^ 2) ≠ 0 := (Real.sqrt_pos.2 h0).ne'
  field_simp
  rw [← pow_two] at h1
  rw [h1]

example (a b : ℝ) : ConvergesOn a b 4 (6 / 10 ^ 14 * 1 * (b - a + 1) * Real.exp ((2 * 1 + 1) * (b - a + 1)))
    (stepperObject fun l t dt => rosDoStep1 defaultRosenbrock scalarSolve (fun x _ => pure (Real.sin x) : Sys ℝ ℝ Unit)
      (fun x _ => pure ((fderiv ℝ Real.sin x : ℝ →ₗ[ℝ] ℝ), 0)) l t dt) fun t => 2 * Real.arctan (Real.exp t) := by
  refine rosenbrock4_converges (F := Real.sin) Real.contDiff_sin zero_le_one (fun x y => ?_) sin_flow scalarSolve_regular
    (fun x t w => ⟨w, rfl⟩) (fun x t w => ⟨w, rfl⟩) fun t _ k _ => ?_
  · have := Real.lipschitzWith_sin.norm_sub_le x y
    simpa using this
  · rw [norm_iteratedFDeriv_eq_norm_iteratedDeriv]
    exact Real.abs_iteratedDeriv_sin_le_one k _

end Verif
