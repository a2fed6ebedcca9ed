import Verif.Lemmas.TryMem
import Verif.Lemmas.ReliableRun
import Verif.Props.RosenbrockRun
import Verif.Props.RosenbrockError
import Verif.Spec.RosenbrockControl

/-! # Tries of `rosenbrock4_controller` -/

namespace Verif
open BSeries Filter Topology Finset

section
variable {eps : ℝ}

theorem rpow_quarter_le {a b : ℝ} (ha : 0 ≤ a) (hb : 0 ≤ b) (h : a ≤ b ^ 4) : a ^ ((1 : ℝ) / 4) ≤ b := by
  refine (Real.rpow_le_rpow ha h (by norm_num)).trans (le_of_eq ?_)
  rw [← Real.rpow_natCast, ← Real.rpow_mul hb]
  norm_num

theorem rosClamp_le_one {f : ℝ} (h : f ≤ 1) : rosClamp (realOps eps) f ≤ 1 := by
  unfold rosClamp
  rw [realOps_max, realOps_min]
  simp only [lit]
  push_cast
  exact max_le (by norm_num) ((min_le_right _ _).trans h)

/-- A small error does not decrease the step size, if the previous step size was not more than five times as large. -/
theorem rosDecide_keep {m : RosMem ℝ} {dt err : ℝ} (h0 : 0 ≤ err) (he : err ≤ 1 / 1000)
    (hm : m.first = true ∨ 1 / 100 ≤ m.errOld ∧ m.dtOld / dt ≤ 5) : ∃ c : ℝ, 1 ≤ c ∧ (rosDecide (realOps eps) 0 m dt err).2.1 = dt * c := by
  set fac := rosClamp (realOps eps) ((realOps eps).pow err (frac 1 4) / rosSafe) with hfac
  have z : (!(realOps eps).eq (0 : ℝ) (lit 0)) = false := by simp [realOps, lit]
  have hle : (realOps eps).le err (lit 1) = true := by simp [realOps, lit]; linarith
  have hq : (frac 1 4 : ℝ) = 1 / 4 := by simp [frac, lit]
  have hs : (rosSafe : ℝ) = 9 / 10 := by simp [rosSafe, frac, lit]
  have hf0 : 0 < fac := lt_of_lt_of_le (by norm_num) (rosClamp_bounds (eps := eps) _).1
  have hf1 : fac ≤ 1 := by
    refine rosClamp_le_one ?_
    rw [hq, hs, div_le_one (by norm_num)]
    exact rpow_quarter_le h0 (by norm_num) (by norm_num; linarith)
  obtain ⟨a, ha0, ha1, hdec⟩ : ∃ a : ℝ, 0 < a ∧ a ≤ 1 ∧ (rosDecide (realOps eps) 0 m dt err).2.1 =
      if m.lastRejected then (if (realOps eps).le (lit 0) dt then (realOps eps).min (dt / a) dt
        else (realOps eps).max (dt / a) dt) else dt / a := by
    unfold rosDecide
    simp only [hle, if_true, z, Bool.false_eq_true, if_false]
    by_cases hf : m.first = true
    · exact ⟨fac, hf0, hf1, by simp only [hf, if_true]; rfl⟩
    · have hf' : m.first = false := by simpa using hf
      obtain ⟨h1, h2⟩ := hm.resolve_left hf
      refine ⟨max fac (rosClamp (realOps eps)
        (m.dtOld / dt * (realOps eps).pow (err * err / m.errOld) (frac 1 4) / rosSafe)), lt_max_of_lt_left hf0, ?_, ?_⟩
      · refine max_le hf1 (rosClamp_le_one ?_)
        rw [hq, hs, div_le_one (by norm_num)]
        have hpos : (0 : ℝ) < m.errOld := by linarith
        have h3 : err * err / m.errOld ≤ (1 / 10) ^ 4 := by
          rw [div_le_iff₀ hpos]
          nlinarith
        have h4 : 0 ≤ err * err / m.errOld := by positivity
        have h5 : (err * err / m.errOld) ^ ((1 : ℝ) / 4) ≤ 1 / 10 := rpow_quarter_le h4 (by norm_num) h3
        have h6 : 0 ≤ (err * err / m.errOld) ^ ((1 : ℝ) / 4) := Real.rpow_nonneg h4 _
        show m.dtOld / dt * (err * err / m.errOld) ^ ((1 : ℝ) / 4) ≤ _
        nlinarith
      · simp only [hf', Bool.false_eq_true, if_false, realOps_max]; rfl
  have h1 : 1 ≤ a⁻¹ := (one_le_inv₀ ha0).2 ha1
  rw [hdec]
  by_cases hl : m.lastRejected = true
  · refine ⟨1, le_rfl, ?_⟩
    rw [if_pos hl, mul_one]
    by_cases hd : 0 ≤ dt
    · rw [if_pos (by simpa [realOps, lit] using hd), realOps_min, div_eq_mul_inv]
      exact min_eq_right (le_mul_of_one_le_right hd h1)
    · rw [if_neg (by simpa [realOps, lit] using hd), realOps_max, div_eq_mul_inv]
      push Not at hd
      exact max_eq_right (by nlinarith)
  · exact ⟨a⁻¹, h1, by rw [if_neg hl, div_eq_mul_inv]⟩

theorem rosDecide_mem (maxDt : ℝ) (m : RosMem ℝ) (dt err : ℝ) : (rosDecide (realOps eps) maxDt m dt err).1 = decide (err ≤ 1) ∧
    (rosDecide (realOps eps) maxDt m dt err).2.2 = if err ≤ 1 then ⟨false, max (1 / 100) err, dt, false⟩ else ⟨m.first, m.errOld, m.dtOld, true⟩ := by
  by_cases he : err ≤ 1
  · have hle : (realOps eps).le err (lit 1) = true := by simp [realOps, lit, he]
    unfold rosDecide
    simp only [hle, if_true, he, decide_true, realOps_max, true_and]
    simp [frac, lit]
  · have hle : (realOps eps).le err (lit 1) = false := by simpa [realOps, lit] using he
    unfold rosDecide
    simp only [hle, Bool.false_eq_true, if_false, he, decide_false, true_and]

/-- the next step size with the limit `σ L` -/
theorem rosDecide_sign {σ L : ℝ} (hσ : σ = 1 ∨ σ = -1) (hL : 0 < L) (m : RosMem ℝ) {dt err : ℝ} (hdt : 0 < σ * dt) (hdL : σ * dt ≤ L) :
    ∃ c : ℝ, (rosDecide (realOps eps) 0 m dt err).2.1 = dt * c ∧ 1 / 5 ≤ c ∧ (1 < err → c ≤ 9 / 10) ∧
      σ * (rosDecide (realOps eps) (σ * L) m dt err).2.1 = min L (σ * dt * c) := by
  obtain ⟨c, c1, c2, c3, c4, c5⟩ := rosDecide_factor (eps := eps) m dt err
  refine ⟨c, c1, c2, c4, ?_⟩
  have hm : σ * L ≠ 0 := by rcases hσ with h | h <;> rw [h] <;> linarith [hL] <;> intro h' <;> linarith
  rw [rosDecide_limit _ hm, c1]
  have hc0 : 0 < σ * dt * c := mul_pos hdt (by linarith)
  split
  · have hmin := realOps_min (eps := eps) (σ * L) (dt * c)
    have hmax := realOps_max (eps := eps) (σ * L) (dt * c)
    have hmin' : (realOps eps).time.stdMin (σ * L) (dt * c) = min (σ * L) (dt * c) := hmin
    have hmax' : (realOps eps).time.stdMax (σ * L) (dt * c) = max (σ * L) (dt * c) := hmax
    rw [TimeArith.minAbs, hmin', hmax']
    rcases hσ with h | h <;> subst h
    · rw [if_pos (by simpa [realOps, NumOps.time, lit] using hL), one_mul, one_mul, one_mul]
    · rw [if_neg (by simpa [realOps, NumOps.time, lit] using hL.le), neg_one_mul, neg_one_mul, neg_one_mul, ← min_neg_neg, neg_neg, neg_mul]
  · rename_i he
    push Not at he
    have := c4 he
    rw [← mul_assoc]
    refine (min_eq_right ?_).symm
    nlinarith

end


/-- the error measure is not larger than the estimate divided by the absolute tolerance -/
theorem ros_error_le {d : ℕ} {atol rtol : ℝ} (ha : 0 < atol) (hr : 0 ≤ rtol) (x xold xerr : Fin d → ℝ) :
    0 ≤ rosError (realOps 0) Real.sqrt atol rtol (List.ofFn x) (List.ofFn xold) (List.ofFn xerr) ∧
    rosError (realOps 0) Real.sqrt atol rtol (List.ofFn x) (List.ofFn xold) (List.ofFn xerr) ≤ ‖xerr‖ / atol := by
  rw [ros_error_rms]
  refine ⟨Real.sqrt_nonneg _, Real.sqrt_le_iff.2 ⟨by positivity, ?_⟩⟩
  have h : ∑ i, (xerr i / rosScale atol rtol (xold i) (x i)) ^ 2 ≤ ∑ _i : Fin d, (‖xerr‖ / atol) ^ 2 := by
    refine sum_le_sum fun i _ => ?_
    have hs : atol ≤ rosScale atol rtol (xold i) (x i) := by
      unfold rosScale
      have : 0 ≤ rtol * max |xold i| |x i| := mul_nonneg hr (le_trans (abs_nonneg _) (le_max_left _ _))
      linarith
    rw [← sq_abs, abs_div, abs_of_pos (ha.trans_le hs)]
    refine pow_le_pow_left₀ (div_nonneg (abs_nonneg _) (ha.le.trans hs)) ?_ 2
    exact div_le_div₀ (norm_nonneg _) (norm_le_pi_norm xerr i) ha hs
  simp only [sum_const, card_univ, Fintype.card_fin, nsmul_eq_mul] at h
  rcases Nat.eq_zero_or_pos d with h0 | h0
  · subst h0
    simp only [CharP.cast_eq_zero, div_zero]
    positivity
  · have : (0 : ℝ) < d := by exact_mod_cast h0
    rw [div_le_iff₀ this, mul_comm]
    exact h

section
variable {V W : Type} [NormedAddCommGroup V] [NormedSpace ℝ V] [CompleteSpace V]

/-- the sixth stage divided by the step size: the error estimate -/
noncomputable def rosE (F : V → V) (z : V × ℝ) : V :=
  rosU (defaultRosenbrock (K := ℝ)).gamma (rosA defaultRosenbrock) (rosC defaultRosenbrock) F z 5

/-- The error estimate of a step, if the matrix is regular. -/
theorem ros_step_estimate {F : V → V} {solve : ℝ → (V →ₗ[ℝ] V) → V → V} (hsol : SolvesRegular solve) {sys : Sys ℝ V W}
    (hs : Evaluates sys fun x _ => F x) {jac : Jac ℝ V W (V →ₗ[ℝ] V)} (hj : Differentiates jac F) {x : V} (t : ℝ) {h : ℝ} (hh : h ≠ 0)
    (hu : IsUnit (rosN F (x, h))) {w w' : W} {r : RosStages V} (e : rosStep defaultRosenbrock solve sys jac x t h w = .ok r w') :
    r.g6 = h • rosE F (x, h) := by
  have hγ : (defaultRosenbrock (K := ℝ)).gamma ≠ 0 := by norm_num [defaultRosenbrock, frac, lit]
  have hc : (defaultRosenbrock (K := ℝ)).gamma * h ≠ 0 := mul_ne_zero hγ hh
  have hreg : IsUnit ((1 / ((defaultRosenbrock (K := ℝ)).gamma * h)) • (1 : Module.End ℝ V) - (fderiv ℝ F x : V →ₗ[ℝ] V)) := by
    have h1 := (hu.map (ContinuousLinearMap.toLinearMapRingHom : (V →L[ℝ] V) →+* V →ₗ[ℝ] V)).smul (Units.mk0 (1 / ((defaultRosenbrock (K := ℝ)).gamma * h)) (one_div_ne_zero hc))
    convert h1 using 1
    ext v
    have e1 : h⁻¹ * (defaultRosenbrock (K := ℝ)).gamma⁻¹ * ((defaultRosenbrock (K := ℝ)).gamma * h) = 1 := by field_simp
    simp [rosN, rosMatrix, Units.smul_def, smul_sub, smul_smul, e1]
  have eqs := ros_step_equations (f := fun x _ => F x) (ft := fun _ _ => 0) (J := fun x _ => (fderiv ℝ F x : V →ₗ[ℝ] V)) defaultRosenbrock solve sys jac
    (fun y s w v w' e => by
      obtain ⟨w'', e'⟩ := hs y s w
      rw [e] at e'
      injection e')
    (fun y s w v w' e => by
      obtain ⟨w'', e'⟩ := hj y s w
      rw [e] at e'
      injection e') x t h w w' r (hsol _ _ hreg) e
  exact rosU_unique hu (n := 6) (g := r.get) (ros_stage_equations hγ hh eqs) 5 (by norm_num)

end

/-- A try that is not too long. -/
theorem ros_try_value {V W Mat : Type} [StateOps ℝ V] (P : RosParams ℝ V) (C : RosCoef ℝ) (solve : ℝ → Mat → V → V) (sys : Sys ℝ V W)
    (jac : Jac ℝ V W Mat) (t dt : ℝ) (h : Heap ℝ V W) (hc : (!P.O.eq P.maxDt (lit 0) && P.O.time.lessWithSign P.maxDt dt dt) = false)
    {s : RosStages V} {w : W} (e : rosStep C solve sys jac (h.state (.user 0)) t dt h.world = .ok s w) :
    let D := rosDecide P.O P.maxDt (rosMem h) dt (P.error (s.x ℝ) (h.state (.user 0)) s.g6)
    ∃ h', rosTry4 P C solve sys jac (.user 0) t dt h = .ok ⟨D.1, if D.1 then t + dt else t, D.2.1⟩ h' ∧ h'.world = w ∧ rosMem h' = D.2.2 ∧
      h'.state (.user 0) = if D.1 then s.x ℝ else h.state (.user 0) := by
  intro D
  have H := ros_try_step P C solve sys jac 0 t dt h
  unfold rosTrial at H
  rw [if_neg (by simp [hc]), M.bind_ok e] at H
  obtain ⟨h', a1, a2, a3, a4, -⟩ := H
  refine ⟨h', ?_, a2, a3, ?_⟩
  · rw [a1]
    show Res.ok (Trial.out _ _ (if D.1 = true then _ else _)) h' = _
    cases D.1 <;> rfl
  · rw [a4]
    cases hD : (rosDecide P.O P.maxDt (rosMem h) dt (P.error (s.x ℝ) (h.state (.user 0)) s.g6)).1 <;> simp [D, hD]

/-- A try that is too long. -/
theorem ros_try_limited {V W Mat : Type} [StateOps ℝ V] (P : RosParams ℝ V) (C : RosCoef ℝ) (solve : ℝ → Mat → V → V) (sys : Sys ℝ V W)
    (jac : Jac ℝ V W Mat) (t dt : ℝ) (h : Heap ℝ V W) (hc : (!P.O.eq P.maxDt (lit 0) && P.O.time.lessWithSign P.maxDt dt dt) = true) :
    ∃ h', rosTry4 P C solve sys jac (.user 0) t dt h = .ok ⟨false, t, P.maxDt⟩ h' ∧ rosMem h' = rosMem h ∧
      h'.state (.user 0) = h.state (.user 0) := by
  have H := ros_try_step P C solve sys jac 0 t dt h
  unfold rosTrial at H
  rw [if_pos hc] at H
  obtain ⟨h', a1, a2, a3, a4, -⟩ := H
  exact ⟨h', a1, a3, a4⟩

/-- growth of an error over one step -/
theorem ros_error_growth {Λ s k e0 c c' e e' : ℝ} (hΛ : 0 ≤ Λ) (hs : 0 ≤ s) (hk : 0 ≤ k) (he0 : 0 ≤ e0) (hc : c' ≤ c) (hc0 : 0 ≤ c)
    (he : e ≤ Real.exp (Λ * s) * (e0 + s * c)) (hstep : e' ≤ e * (1 + Λ * k) + k * c') : e' ≤ Real.exp (Λ * (s + k)) * (e0 + (s + k) * c) := by
  have h1 : Λ * k + 1 ≤ Real.exp (Λ * k) := Real.add_one_le_exp _
  have h2 : 1 ≤ Real.exp (Λ * (s + k)) := Real.one_le_exp (by positivity)
  have h3 : e * (1 + Λ * k) ≤ Real.exp (Λ * s) * (e0 + s * c) * Real.exp (Λ * k) := by
    refine mul_le_mul he (by linarith) (by positivity) (by positivity)
  have h4 : Real.exp (Λ * (s + k)) = Real.exp (Λ * s) * Real.exp (Λ * k) := by rw [mul_add, Real.exp_add]
  have h5 : k * c' ≤ Real.exp (Λ * (s + k)) * (k * c) :=
    (mul_le_mul_of_nonneg_left hc hk).trans (le_mul_of_one_le_left (by positivity) h2)
  rw [h4] at h5 ⊢
  nlinarith

/-- near a solution: the matrix is regular, steps follow the solution and the error estimates are bounded -/
theorem ros_near {V : Type} [NormedAddCommGroup V] [NormedSpace ℝ V] [FiniteDimensional ℝ V] [CompleteSpace V] {F : V → V} (hF : ContDiff ℝ 6 F) {L : ℝ} (hL : 0 ≤ L) (hlip : ∀ x y, ‖F x - F y‖ ≤ L * ‖x - y‖) {φ : ℝ → V}
    (hφ : IsFlowLine (fun x _ => F x) φ) {a b m : ℝ} (hm0 : 0 ≤ m)
    (hm : ∀ t ∈ Set.Icc a b, ∀ k, k ≤ 3 → ‖iteratedFDeriv ℝ k F (φ t)‖ ≤ m) {E : ℝ} (hE : 0 ≤ E) :
    ∃ A M η, 0 ≤ A ∧ 0 ≤ M ∧ 0 < η ∧ ∀ t ∈ Set.Icc a b, ∀ x, ‖x - φ t‖ ≤ E → ∀ h, |h| ≤ η → IsUnit (rosN F (x, h)) ∧ ‖rosE F (x, h)‖ ≤ M ∧
      ‖x + h • rosR F (x, h) - φ (t + h)‖ ≤ ‖x - φ t‖ * (1 + (2 * L + 1) * |h|) + |h| * (2 / 10 ^ 14 * m + A * |h| ^ 4) := by
  have hcont : Continuous φ := continuous_iff_continuousAt.2 fun t => (hφ t).continuousAt
  obtain ⟨ρ, hρ⟩ := (isCompact_Icc : IsCompact (Set.Icc a b)).exists_bound_of_continuousOn hcont.continuousOn
  have : ProperSpace V := FiniteDimensional.proper ℝ V
  have hcb : IsCompact (Metric.closedBall (0 : V) (ρ + E)) := isCompact_closedBall _ _
  obtain ⟨η, hη, hB⟩ := ros_tube (hF.of_le (by norm_num)) hL hlip hcb
  have hin : ∀ t ∈ Set.Icc a b, ∀ x, ‖x - φ t‖ ≤ E → x ∈ Metric.closedBall (0 : V) (ρ + E) := by
    intro t ht x hx
    rw [mem_closedBall_zero_iff]
    have := norm_add_le (φ t) (x - φ t)
    rw [add_sub_cancel] at this
    linarith [hρ t ht]
  have hin0 : ∀ t ∈ Set.Icc a b, φ t ∈ Metric.closedBall (0 : V) (ρ + E) := fun t ht => hin t ht _ (by simpa using hE)
  obtain ⟨A, hA, hloc⟩ := ros_local_error hF hφ hη hm fun t ht h hh => (hB _ (hin0 t ht) h hh).1
  have hF2 : ContDiff ℝ (0 + 1 : ℕ) F := by exact_mod_cast hF.of_le (by norm_num)
  obtain ⟨M, hM⟩ := (hcb.prod (isCompact_Icc : IsCompact (Set.Icc (-η) η))).exists_bound_of_continuousOn (f := rosE F) fun z hz =>
    ((rosU_contDiffAt (rosA defaultRosenbrock) (rosC defaultRosenbrock) hF2 (hB z.1 hz.1 z.2 (abs_le.2 hz.2)).1 5).continuousAt).continuousWithinAt
  refine ⟨A, |M|, min η (1 / (2 * m + 1)), hA, abs_nonneg _, lt_min hη (by positivity), ?_⟩
  intro t ht x hx h hh
  have hh1 : |h| ≤ η := hh.trans (min_le_left _ _)
  have hh2 : m * |h| ≤ 1 / 2 := by
    have := hh.trans (min_le_right _ _)
    rw [le_div_iff₀ (by positivity)] at this
    nlinarith [abs_nonneg h]
  refine ⟨(hB x (hin t ht x hx) h hh1).1, (hM (x, h) ⟨hin t ht x hx, abs_le.1 hh1⟩).trans (le_abs_self _), ?_⟩
  have l1 := ros_lipschitz (hF.of_le (by norm_num)) (convex_closedBall (0 : V) (ρ + E)) hB (hin t ht x hx) (hin0 t ht) hh1
  have l2 := hloc t ht h hh1
  have e : x + h • rosR F (x, h) - φ (t + h) = (x - φ t) + h • (rosR F (x, h) - rosR F (φ t, h)) + (φ t + h • rosR F (φ t, h) - φ (t + h)) := by
    rw [smul_sub]; abel
  have l3 : ∑ k ∈ range 4, (m * |h|) ^ (k + 1) ≤ 2 * (m * |h|) := by
    have s0 : 0 ≤ m * |h| := by positivity
    set s := m * |h|
    simp only [sum_range_succ, sum_range_zero]
    have s2 : s ^ 2 ≤ s / 2 := by nlinarith
    have s3 : s ^ 3 ≤ s / 4 := by nlinarith
    have s4 : s ^ 4 ≤ s / 8 := by nlinarith
    norm_num
    linarith
  rw [e]
  refine (norm_add_le _ _).trans ((add_le_add (norm_add_le _ _) l2).trans ?_)
  rw [norm_smul, Real.norm_eq_abs]
  have l4 : |h| * ‖rosR F (x, h) - rosR F (φ t, h)‖ ≤ |h| * ((2 * L + 1) * ‖x - φ t‖) := mul_le_mul_of_nonneg_left l1 (abs_nonneg h)
  have e5 : |h| * (2 / 10 ^ 14 * m + A * |h| ^ 4) = 2 / 10 ^ 14 * (m * |h|) + A * |h| ^ 5 := by ring
  rw [e5]
  nlinarith

end Verif
