import Verif.Props.RosenbrockStable
import Verif.Props.RosenbrockDense

/-!
# C22, C34: executions of `rosenbrock4_controller` and `rosenbrock4_dense_output`
-/

set_option linter.unusedSectionVars false

namespace Verif

/-- `x' = 1`, counting calls -/
def rosOne : Sys ℝ ℝ ℕ := fun _ _ w => .ok 1 (w + 1)
/-- the Jacobian of `x' = 1`, counting calls -/
def rosOneJac : Jac ℝ ℝ ℕ (ℝ →ₗ[ℝ] ℝ) := fun _ _ w => .ok (0, 0) (w + 1)
/-- the solver for a zero Jacobian -/
noncomputable def rosDiv : ℝ → (ℝ →ₗ[ℝ] ℝ) → ℝ → ℝ := fun c _ b => b / c

/-- a step for `x' = 1` -/
theorem rosOne_step (x t dt : ℝ) (hdt : dt ≠ 0) (w : ℕ) : ∃ r w',
    rosStep defaultRosenbrock rosDiv rosOne rosOneJac x t dt w = .ok r w' ∧
    r.x ℝ = x + rosWeight defaultRosenbrock 0 * dt := by
  have hs : ∃ r w', rosStep defaultRosenbrock rosDiv rosOne rosOneJac x t dt w = .ok r w' := ⟨_, _, rfl⟩
  obtain ⟨r, w', hs⟩ := hs
  refine ⟨r, w', hs, ?_⟩
  have hg : (defaultRosenbrock (K := ℝ)).gamma ≠ 0 := by norm_num [defaultRosenbrock, frac, lit]
  have E := ros_step_equations (f := fun _ s => (1 : ℝ) + (s - t) • (0 : ℝ) + (s - t) ^ 2 • (0 : ℝ) + (s - t) ^ 3 • (0 : ℝ))
    (ft := fun _ _ => 0) (J := fun _ _ => 0) defaultRosenbrock rosDiv rosOne rosOneJac
    (fun y s w v w' e => by injection e with e _; rw [← e]; simp)
    (fun y s w v w' e => by injection e with e _; exact e.symm) x t dt w w' r
    (fun b => by
      rw [LinearMap.zero_apply, sub_zero, smul_eq_mul, rosDiv, mul_div_cancel₀]
      exact one_div_ne_zero (mul_ne_zero hg hdt)) hs
  have Q := ros_quadrature defaultRosenbrock 1 0 0 0 x t dt r _ hg hdt E
  rw [Q]
  simp

/-- the divisor of the step size after an error of 2 -/
noncomputable def rosFac : ℝ := rosClamp (realOps 0) ((realOps 0).pow 2 (frac 1 4) / rosSafe)

/-- a controller that accepts steps of `x' = 1` up to the length `1 / rosFac ^ 500` -/
noncomputable def rosLate : RosParams ℝ ℝ where
  O := realOps 0
  maxDt := 0
  error x xold _ := if |x - xold| ≤ rosWeight defaultRosenbrock 0 * (1 / rosFac ^ 500) then 0 else 2

theorem rosFac_gt : 1 < rosFac := by
  have := rosClamp_reject (eps := 0) (e := 2) (by norm_num)
  unfold rosFac
  linarith

theorem rosWeight0_pos : 0 < rosWeight (defaultRosenbrock (K := ℝ)) 0 := by
  have := ros_weights.1
  rw [abs_le] at this
  linarith [this.1]

/-- one trial -/
theorem rosLate_trial (m : RosMem ℝ) (x t dt : ℝ) (hdt : 0 < dt) (w : ℕ) :
    (dt ≤ 1 / rosFac ^ 500 → ∃ r e d m' w', rosTrial rosLate defaultRosenbrock rosDiv rosOne rosOneJac m x t dt w =
      .ok (.accepted r e d, m') w') ∧
    (1 / rosFac ^ 500 < dt → ∃ r e m' w', rosTrial rosLate defaultRosenbrock rosDiv rosOne rosOneJac m x t dt w =
      .ok (.rejected r e (dt / rosFac), m') w') := by
  obtain ⟨r, w', hs, hx⟩ := rosOne_step x t dt hdt.ne' w
  have hW := rosWeight0_pos
  have hcond : (!rosLate.O.eq rosLate.maxDt (lit 0) && rosLate.O.time.lessWithSign rosLate.maxDt dt dt) = false := by
    simp [rosLate, realOps, lit]
  have habs : |r.x ℝ - x| = rosWeight defaultRosenbrock 0 * dt := by
    rw [hx, add_sub_cancel_left, abs_of_pos (mul_pos hW hdt)]
  constructor
  · intro hle
    have he : rosLate.error (r.x ℝ) x r.g6 = 0 := by
      simp only [rosLate]
      rw [if_pos (by rw [habs]; exact mul_le_mul_of_nonneg_left hle hW.le)]
    unfold rosTrial
    rw [hcond]
    simp only [Bool.false_eq_true, if_false, M.bind_apply, hs, M.pure_apply, he]
    rw [(ros_accept_iff _ _ _ _ _).1, if_pos (by simp [rosLate, realOps, lit])]
    exact ⟨_, _, _, _, _, rfl⟩
  · intro hlt
    have he : rosLate.error (r.x ℝ) x r.g6 = 2 := by
      simp only [rosLate]
      rw [if_neg (by rw [habs, not_le]; exact mul_lt_mul_of_pos_left hlt hW)]
    unfold rosTrial
    rw [hcond]
    simp only [Bool.false_eq_true, if_false, M.bind_apply, hs, M.pure_apply, he]
    rw [(ros_accept_iff _ _ _ _ _).1, if_neg (by norm_num [rosLate, realOps, lit])]
    refine ⟨r, 2, (rosDecide rosLate.O rosLate.maxDt m dt 2).2.2, w', ?_⟩
    congr 3
    unfold rosDecide
    rw [if_neg (by norm_num [rosLate, realOps, lit])]
    rfl

/-- all trials -/
theorem rosLate_trials (x t : ℝ) : ∀ n, n ≤ 500 → ∀ (m : RosMem ℝ) (w : ℕ), ∃ d m' w',
    rosTrials rosLate defaultRosenbrock rosDiv rosOne rosOneJac x t n m (1 / rosFac ^ (500 - n)) w =
      .ok (.threw .stepAdjustment (t + 1 / rosFac ^ 500) d m') w' := by
  have hf := rosFac_gt
  intro n
  induction n with
  | zero =>
    intro _ m w
    obtain ⟨r, e, d, m', w', h⟩ := (rosLate_trial m x t (1 / rosFac ^ 500) (by positivity) w).1 le_rfl
    refine ⟨d, m', w', ?_⟩
    unfold rosTrials
    rw [Nat.sub_zero, h]
  | succ n ih =>
    intro hn m w
    have hlt : 1 / rosFac ^ 500 < 1 / rosFac ^ (500 - (n + 1)) := by
      apply one_div_lt_one_div_of_lt (by positivity)
      exact pow_lt_pow_right₀ hf (by omega)
    obtain ⟨r, e, m', w', h⟩ := (rosLate_trial m x t (1 / rosFac ^ (500 - (n + 1))) (by positivity) w).2 hlt
    unfold rosTrials
    rw [h]
    have : 1 / rosFac ^ (500 - (n + 1)) / rosFac = 1 / rosFac ^ (500 - n) := by
      rw [div_div, ← pow_succ]
      congr 2
      omega
    rw [this]
    exact ih (by omega) m' w'

/-- **C34 is violated** by `rosenbrock4_dense_output`: if the 501st trial is the first one that is accepted, `do_step`
throws, but the current time has already advanced, while the current state has not: the pair of current state and current
time is not a point of the trajectory. -/
theorem ros_dense_late_accept_inconsistent (a : RosDense ℝ ℝ ℕ) (hdt : a.dt = 1) :
    ∃ a', a.step rosLate defaultRosenbrock rosDiv rosOne rosOneJac = .err .stepAdjustment a' ∧ a'.x = a.x ∧ a.t < a'.t := by
  obtain ⟨d, m', w', h⟩ := rosLate_trials a.x a.t 500 le_rfl a.mem a.world
  simp only [Nat.sub_self, pow_zero, div_one] at h
  refine ⟨⟨a.x, a.t + 1 / rosFac ^ 500, d, m', none, a.user, w'⟩, ?_, rfl, ?_⟩
  · unfold RosDense.step
    rw [hdt, show defaultMaxSteps = 500 from rfl, h]
  · have := rosFac_gt
    have : 0 < 1 / rosFac ^ 500 := by positivity
    linarith

/-- The hypotheses of `ros_try_step_bounds` and `ros_no_growth_after_rejection` are met: a try with `dt = 1` from zero is
rejected, a second one with `dt = 1 / rosFac ^ 500` is accepted. -/
theorem ros_try_witness (h : Heap ℝ ℝ ℕ) : ∃ r h₁ r' h₂,
    rosTry4 rosLate defaultRosenbrock rosDiv rosOne rosOneJac (.user 0) 0 1 h = .ok r h₁ ∧ r.success = false ∧
    rosTry4 rosLate defaultRosenbrock rosDiv rosOne rosOneJac (.user 0) 0 (1 / rosFac ^ 500) h₁ = .ok r' h₂ ∧
    r'.success = true := by
  have hf := rosFac_gt
  have h1 : 1 / rosFac ^ 500 < 1 := by
    rw [div_lt_one (by positivity)]
    exact one_lt_pow₀ hf (by norm_num)
  have A := ros_try_step rosLate defaultRosenbrock rosDiv rosOne rosOneJac 0 0 1 h
  obtain ⟨r, e, m', w', hT⟩ := (rosLate_trial (rosMem h) (h.state (.user 0)) 0 1 one_pos h.world).2 h1
  rw [hT] at A
  obtain ⟨h₁, a1, -⟩ := A
  have B := ros_try_step rosLate defaultRosenbrock rosDiv rosOne rosOneJac 0 0 (1 / rosFac ^ 500) h₁
  obtain ⟨r, e, d, m', w', hT⟩ :=
    (rosLate_trial (rosMem h₁) (h₁.state (.user 0)) 0 (1 / rosFac ^ 500) (by positivity) h₁.world).1 le_rfl
  rw [hT] at B
  obtain ⟨h₂, b1, -⟩ := B
  exact ⟨_, h₁, _, h₂, a1, rfl, b1, rfl⟩

end Verif
