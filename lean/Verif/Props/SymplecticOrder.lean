import Verif.Lemmas.SplitRun
import Mathlib.Analysis.SpecialFunctions.Trigonometric.Deriv
import Mathlib.Analysis.SpecialFunctions.ExpDeriv

/-! # C72: the order of the symplectic steppers and of velocity_verlet, alone and inside the integrate functions -/

namespace Verif
open BSeries

theorem sb3aM4Coef_eq : (sb3aM4Coef Real.sqrt : List (ℝ × ℝ)) = [(1 / 2 - √(7 / 8) / 3, 1), (-1 / 3 + √(7 / 8) / 3, -1 / 2), (2 / 3, -1 / 2),
    (-1 / 3 + √(7 / 8) / 3, 1), (1 / 2 - √(7 / 8) / 3, 0)] := by
  simp [sb3aM4Coef, sb3aM4A, sb3aM4B, lit]

theorem sb3aCoef_eq : (sb3aCoef : List (ℝ × ℝ)) = sb3aOf (40518861839525227722 / 100000000000000000000) (-28714404081652408900 / 100000000000000000000) := by
  simp only [sb3aCoef, sb3aA, sb3aB, sb3aOf, lit, frac, List.zip_cons_cons, List.zip_nil_right]
  norm_num

/-- the coefficients of the symplectic steppers with the orders they have -/
theorem symplectic_conditions : SplitConditions (subSteps symplecticEulerCoef) 1 ∧ SplitConditions (subSteps (sb3aM4Coef Real.sqrt)) 4 ∧
    SplitConditions (subSteps sb3aCoef) 2 := by
  refine ⟨?_, ?_, ?_⟩
  · have : (symplecticEulerCoef : List (ℝ × ℝ)) = [(1, 1)] := by simp [symplecticEulerCoef, lit]
    rw [this]
    exact BSeries.euler_conditions
  · rw [sb3aM4Coef_eq]
    refine m4_conditions ?_
    rw [div_pow, Real.sq_sqrt (by norm_num)]
    norm_num
  · rw [sb3aCoef_eq]
    exact sb3aOf_conditions _ _

section local_order
variable {V : Type} [NormedAddCommGroup V] [NormedSpace ℝ V] [CompleteSpace V]

/-- **C72**, one step.  A step of `symplectic_euler` for `dq/dt = f( p )`, `dp/dt = g( q )` has order 1, -/
theorem symplectic_euler_order {f g : V → V} {z0 : V × V} {t0 : ℝ} (hs : SmoothAt (separable f g) 1 z0 t0) {φ : ℝ → V × V}
    (hφ : IsSolution (separable f g) z0 t0 φ) : LocalOrder 1 (fun h => sympMap symplecticEulerCoef f g h z0) t0 φ :=
  symplectic_order_of le_rfl symplectic_conditions.1 hs hφ

/-- a step of `symplectic_rkn_sb3a_m4_mclachlan` has order 4. -/
theorem sb3a_m4_order {f g : V → V} {z0 : V × V} {t0 : ℝ} (hs : SmoothAt (separable f g) 4 z0 t0) {φ : ℝ → V × V}
    (hφ : IsSolution (separable f g) z0 t0 φ) : LocalOrder 4 (fun h => sympMap (sb3aM4Coef Real.sqrt) f g h z0) t0 φ :=
  symplectic_order_of (by norm_num) symplectic_conditions.2.1 hs hφ

/-- For `symplectic_rkn_sb3a_mclachlan`, two of whose coefficients are written as decimals with 20 digits: with these decimals the order is at least 2,
and there are coefficients that differ from the decimals by at most `10^-20` with which a step has order 4. -/
theorem sb3a_order_partial {f g : V → V} {z0 : V × V} {t0 : ℝ} {φ : ℝ → V × V} (hφ : IsSolution (separable f g) z0 t0 φ) :
    (SmoothAt (separable f g) 2 z0 t0 → LocalOrder 2 (fun h => sympMap sb3aCoef f g h z0) t0 φ) ∧
    ∃ coef : List (ℝ × ℝ), List.Forall₂ (fun c d => |c.1 - d.1| ≤ 4 / 10 ^ 20 ∧ c.2 = d.2) coef sb3aCoef ∧
      (SmoothAt (separable f g) 4 z0 t0 → LocalOrder 4 (fun h => sympMap coef f g h z0) t0 φ) := by
  refine ⟨fun hs => symplectic_order_of (by norm_num) symplectic_conditions.2.2 hs hφ, ?_⟩
  obtain ⟨a0, a1, h0, h1, hc⟩ := sb3a_near
  refine ⟨sb3aOf a0 a1, ?_, fun hs => symplectic_order_of (by norm_num) hc hs hφ⟩
  rw [sb3aCoef_eq]
  rw [abs_le] at h0 h1
  norm_num at h0 h1
  simp only [sb3aOf, List.forall₂_cons, List.forall₂_nil_left_iff, and_true, abs_le]
  norm_num
  obtain ⟨h01, h02⟩ := h0
  obtain ⟨h11, h12⟩ := h1
  refine ⟨⟨?_, ?_⟩, ⟨?_, ?_⟩, ⟨?_, ?_⟩, ⟨?_, ?_⟩, ?_, ?_⟩ <;> linarith

/-- A step of `velocity_verlet` for `dq/dt = p`, `dp/dt = a( q , t )` has order 2; its `order()` is 1. -/
theorem verlet_order {a : V → ℝ → V} {z0 : V × V} {t0 : ℝ} (hs : SmoothAt (secondOrder a) 2 z0 t0) {φ : ℝ → V × V}
    (hφ : IsSolution (secondOrder a) z0 t0 φ) : LocalOrder 2 (fun h => verletMap a t0 h z0) t0 φ :=
  verlet_order_of hs hφ

end local_order

section runs
variable {V W : Type} [NormedAddCommGroup V] [NormedSpace ℝ V] [CompleteSpace V]

/-- The symplectic steppers inside the integrate functions, from the order conditions. -/
theorem symplectic_converges_of {coef : List (ℝ × ℝ)} (hc : coef ≠ []) {p : ℕ} (hp : 1 ≤ p) (hL : SplitConditions (subSteps coef) p) {f g : V → V}
    (hgood : GoodRhs (separable f g) (p + 1)) {φ : ℝ → V × V} (hφ : IsFlowLine (separable f g) φ) {coor mom : V → M W V} (hf : EvaluatesTo coor f)
    (hg : EvaluatesTo mom g) :
    ConvergesWithOrder p (pairStepperObject (K := ℝ) fun q p _ dt => rknDoStep coef coor mom q p dt) (fun _ => True) φ := by
  refine converges_of_stepFn hgood hφ (symplectic_stepFn hf hg hc) (subSteps_regular hgood coef) (fun t => ?_) fun _ _ _ _ => trivial
  have := symplectic_order_of hp hL (hgood.smoothAt (by omega) _ _) (hφ.isSolution t)
  refine this.congr_left fun h => ?_
  dsimp only
  rw [symplectic_composition, splitStep_subSteps]

theorem symplectic_mom_converges_of {coef : List (ℝ × ℝ)} (hc : coef ≠ []) {p : ℕ} (hp : 1 ≤ p) (hL : SplitConditions (subSteps coef) p) {g : V → V}
    (hgood : GoodRhs (separable id g) (p + 1)) {φ : ℝ → V × V} (hφ : IsFlowLine (separable id g) φ) {mom : V → M W V} (hg : EvaluatesTo mom g) :
    ConvergesWithOrder p (pairStepperObject (K := ℝ) fun q p _ dt => rknDoStepMom coef mom q p dt) (fun _ => True) φ := by
  refine converges_of_stepFn hgood hφ (symplectic_mom_stepFn hg hc) (subSteps_regular hgood coef) (fun t => ?_) fun _ _ _ _ => trivial
  have := symplectic_order_of hp hL (hgood.smoothAt (by omega) _ _) (hφ.isSolution t)
  refine this.congr_left fun h => ?_
  dsimp only
  rw [symplectic_composition, splitStep_subSteps]

/-- **C72**.  For every system of two functions `f` and `g` such that `dq/dt = f( p )`, `dp/dt = g( q )` is smooth and Lipschitz continuous, the integrate
functions with the symplectic steppers, in any state of their memory, converge: with order 1 for `symplectic_euler`, with order 4 for
`symplectic_rkn_sb3a_m4_mclachlan` and (at least) with order 2 for `symplectic_rkn_sb3a_mclachlan` with its rounded coefficients. -/
theorem symplectic_steppers_converge {f g : V → V} {φ : ℝ → V × V} (hφ : IsFlowLine (separable f g) φ) {coor mom : V → M W V} (hf : EvaluatesTo coor f)
    (hg : EvaluatesTo mom g) :
    let stepper := fun coef : List (ℝ × ℝ) => pairStepperObject (K := ℝ) fun q p _ dt => rknDoStep coef coor mom q p dt
    (GoodRhs (separable f g) 2 → ConvergesWithOrder 1 (stepper symplecticEulerCoef) (fun _ => True) φ) ∧
    (GoodRhs (separable f g) 5 → ConvergesWithOrder 4 (stepper (sb3aM4Coef Real.sqrt)) (fun _ => True) φ) ∧
    (GoodRhs (separable f g) 3 → ConvergesWithOrder 2 (stepper sb3aCoef) (fun _ => True) φ) := by
  obtain ⟨c1, c2, c3⟩ := symplectic_conditions
  exact ⟨fun h => symplectic_converges_of (by simp [symplecticEulerCoef]) le_rfl c1 h hφ hf hg,
    fun h => symplectic_converges_of (by simp [sb3aM4Coef, sb3aM4A, sb3aM4B]) (by norm_num) c2 h hφ hf hg,
    fun h => symplectic_converges_of (by simp [sb3aCoef, sb3aA, sb3aB]) (by norm_num) c3 h hφ hf hg⟩

/-- The same for systems given by one function `g`: `dq/dt = p`, `dp/dt = g( q )`. -/
theorem symplectic_momentum_steppers_converge {g : V → V} {φ : ℝ → V × V} (hφ : IsFlowLine (separable id g) φ) {mom : V → M W V} (hg : EvaluatesTo mom g) :
    let stepper := fun coef : List (ℝ × ℝ) => pairStepperObject (K := ℝ) fun q p _ dt => rknDoStepMom coef mom q p dt
    (GoodRhs (separable id g) 2 → ConvergesWithOrder 1 (stepper symplecticEulerCoef) (fun _ => True) φ) ∧
    (GoodRhs (separable id g) 5 → ConvergesWithOrder 4 (stepper (sb3aM4Coef Real.sqrt)) (fun _ => True) φ) ∧
    (GoodRhs (separable id g) 3 → ConvergesWithOrder 2 (stepper sb3aCoef) (fun _ => True) φ) := by
  obtain ⟨c1, c2, c3⟩ := symplectic_conditions
  exact ⟨fun h => symplectic_mom_converges_of (by simp [symplecticEulerCoef]) le_rfl c1 h hφ hg,
    fun h => symplectic_mom_converges_of (by simp [sb3aM4Coef, sb3aM4A, sb3aM4B]) (by norm_num) c2 h hφ hg,
    fun h => symplectic_mom_converges_of (by simp [sb3aCoef, sb3aA, sb3aB]) (by norm_num) c3 h hφ hg⟩

/-- **C72** for `velocity_verlet`, with a stepper that has not been used or has been reset, and an acceleration that does not depend on the velocity:
the integrate functions converge with order 2. -/
theorem verlet_converges {a : V → ℝ → V} (hgood : GoodRhs (secondOrder a) 3) {φ : ℝ → V × V} (hφ : IsFlowLine (secondOrder a) φ) {sys : Sys2 ℝ V W}
    (hs : Accelerates sys a) (resized : Bool) :
    ConvergesWithOrder 2 (pairStepperObject (K := ℝ) fun q p t dt => verletDoStep resized sys q p t dt) (fun h => h.flag mVerletFirst = true) φ := by
  refine converges_of_stepFn hgood hφ (verlet_stepFn hs resized) (verlet_regular hgood)
    (fun t => verlet_order (hgood.smoothAt (by omega) _ _) (hφ.isSolution t)) fun q x t hq hq' => ?_
  rw [hq] at hq'
  exact absurd hq' (by decide)

end runs

/-! ## A system that meets the hypotheses: the linear pendulum -/

theorem pendulum_good (n : ℕ) : GoodRhs (separable (id : ℝ → ℝ) fun q => -q) n ∧ GoodRhs (secondOrder fun (q : ℝ) (_ : ℝ) => -q) n := by
  have h1 : ContDiff ℝ n fun z : (ℝ × ℝ) × ℝ => ((z.1.2, -z.1.1) : ℝ × ℝ) := by fun_prop
  have h2 : ∃ L, ∀ (x y : ℝ × ℝ) (t : ℝ), ‖((x.2, -x.1) : ℝ × ℝ) - (y.2, -y.1)‖ ≤ L * ‖x - y‖ := by
    refine ⟨1, fun x y t => ?_⟩
    have : -x.1 - -y.1 = -(x.1 - y.1) := by ring
    simp only [Prod.norm_def, Prod.fst_sub, Prod.snd_sub, this, norm_neg, one_mul]
    rw [max_comm]
  exact ⟨⟨h1, h2⟩, ⟨h1, h2⟩⟩

theorem pendulum_solution : IsFlowLine (separable (id : ℝ → ℝ) fun q => -q) (fun t => (Real.sin t, Real.cos t)) ∧
    IsFlowLine (secondOrder fun (q : ℝ) (_ : ℝ) => -q) (fun t => (Real.sin t, Real.cos t)) :=
  ⟨fun t => (Real.hasDerivAt_sin t).prodMk (Real.hasDerivAt_cos t), fun t => (Real.hasDerivAt_sin t).prodMk (Real.hasDerivAt_cos t)⟩

/-- `integrate_const` with the fourth order symplectic stepper and with `velocity_verlet`, for a system that counts its calls. -/
example : ConvergesWithOrder 4 (pairStepperObject (K := ℝ) fun q p _ dt =>
      rknDoStep (sb3aM4Coef Real.sqrt) (fun x n => .ok x (n + 1)) (fun x (n : ℕ) => .ok (-x) (n + 1)) q p dt) (fun _ => True)
      (fun t => (Real.sin t, Real.cos t)) ∧
    ConvergesWithOrder 2 (pairStepperObject (K := ℝ) fun q p t dt => verletDoStep false (countAcc fun (q : ℝ) (_ : ℝ) => -q) q p t dt)
      (fun h => h.flag mVerletFirst = true) (fun t => (Real.sin t, Real.cos t)) :=
  ⟨(symplectic_steppers_converge pendulum_solution.1 (f := id) (g := fun q => -q) (fun _ w => ⟨w + 1, rfl⟩) fun _ w => ⟨w + 1, rfl⟩).2.1
      (pendulum_good 5).1,
    verlet_converges (pendulum_good 3).2 pendulum_solution.2 (fun _ _ _ w => ⟨w + 1, rfl⟩) false⟩

/-! ## Accelerations that depend on the velocity

The system function of `velocity_verlet` is given the velocity as well, but it is the velocity at the start of the step. -/

/-- the damped motion `dq/dt = p`, `dp/dt = -p` -/
def dampedSys : Sys2 ℝ ℝ Unit := fun _ p _ => pure (-p)

/-- **C72, negation** for such accelerations: one step of `velocity_verlet` for `dq/dt = p`, `dp/dt = -p` has an error of exactly
`p (1 - dt - exp( -dt ))` in the velocity, so it does not have order 2 (only order 1, as its `order()` says). -/
theorem verlet_damped_order_fails {p0 : ℝ} (hp : p0 ≠ 0) :
    IsFlowLine (fun (z : ℝ × ℝ) (_ : ℝ) => (z.2, -z.2)) (fun t => (p0 * (1 - Real.exp (-t)), p0 * Real.exp (-t))) ∧
    (∀ h : ℝ, (phaseOf (0, p0) (verletDoStep false dampedSys (.user 0) (.user 1) 0 h (phaseHeap (0, p0)))).2 = p0 * (1 - h)) ∧
    ¬ LocalOrder 2 (fun h => phaseOf (0, p0) (verletDoStep false dampedSys (.user 0) (.user 1) 0 h (phaseHeap (0, p0)))) 0
      (fun t => (p0 * (1 - Real.exp (-t)), p0 * Real.exp (-t))) := by
  have hval : ∀ h : ℝ, (phaseOf (0, p0) (verletDoStep false dampedSys (.user 0) (.user 1) 0 h (phaseHeap (0, p0)))).2 = p0 * (1 - h) := by
    intro h
    have : (phaseOf (0, p0) (verletDoStep false dampedSys (.user 0) (.user 1) 0 h (phaseHeap (0, p0)))).2 =
        lin [(lit 1, p0), (frac 1 2 * h, -p0), (frac 1 2 * h, -p0)] := rfl
    rw [this]
    simp only [lin, lit, frac, List.map_cons, List.map_nil, List.sum_cons, List.sum_nil, smul_eq_mul]
    push_cast
    ring
  have hexp : ∀ t : ℝ, HasDerivAt (fun t : ℝ => Real.exp (-t)) (-Real.exp (-t)) t := fun t => by
    simpa using (hasDerivAt_neg t).exp
  refine ⟨fun t => ?_, hval, fun hO => ?_⟩
  · refine (((hexp t).const_sub 1).const_mul p0 |>.congr_deriv ?_).prodMk ((hexp t).const_mul p0 |>.congr_deriv ?_) <;> simp
  · have h2 := Asymptotics.isBigO_snd_prod.trans hO
    obtain ⟨C, hC, hb⟩ := h2.exists_pos
    rw [Asymptotics.IsBigOWith, Metric.eventually_nhds_iff] at hb
    obtain ⟨ε, hε, hb⟩ := hb
    set x := min (ε / 2) (|p0| / (4 * C)) with hx
    have hp' : 0 < |p0| := abs_pos.2 hp
    have hx0 : 0 < x := lt_min (by positivity) (by positivity)
    have hx1 : x ≤ ε / 2 := min_le_left _ _
    have hx2 : x ≤ |p0| / (4 * C) := min_le_right _ _
    have hx3 : C * x ≤ |p0| / 4 := by
      calc C * x ≤ C * (|p0| / (4 * C)) := mul_le_mul_of_nonneg_left hx2 hC.le
        _ = |p0| / 4 := by field_simp
    have h3 := hb (y := -x) (by rw [Real.dist_eq, sub_zero, abs_neg, abs_of_pos hx0]; linarith)
    simp only [Prod.snd_sub, hval, zero_add, neg_neg, norm_pow, norm_neg, Real.norm_eq_abs, abs_of_pos hx0] at h3
    rw [← mul_sub, abs_mul] at h3
    have h4 := Real.quadratic_le_exp_of_nonneg hx0.le
    have h5 : x ^ 2 / 2 ≤ |1 - -x - Real.exp x| := by
      rw [abs_sub_comm]
      refine le_trans ?_ (le_abs_self _)
      linarith
    have h6 : |p0| * (x ^ 2 / 2) ≤ C * x ^ 3 := (mul_le_mul_of_nonneg_left h5 hp'.le).trans h3
    have h7 : C * x ^ 3 ≤ |p0| / 4 * x ^ 2 := by
      rw [show C * x ^ 3 = C * x * x ^ 2 by ring]
      exact mul_le_mul_of_nonneg_right hx3 (by positivity)
    nlinarith [mul_pos hp' (pow_pos hx0 2)]

/-- Non-vacuity: a velocity that is not zero. -/
example : ¬ LocalOrder 2 (fun h => phaseOf (0, (1 : ℝ)) (verletDoStep false dampedSys (.user 0) (.user 1) 0 h (phaseHeap (0, 1)))) 0
    (fun t => (1 * (1 - Real.exp (-t)), 1 * Real.exp (-t))) := (verlet_damped_order_fails one_ne_zero).2.2

end Verif
