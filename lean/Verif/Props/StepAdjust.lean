import Verif.Spec.RealOps
import Verif.Spec.Direction
import Verif.Props.ControlledRk
import Mathlib.Tactic.Linarith
import Mathlib.Tactic.NormNum
import Mathlib.Tactic.Positivity
import Mathlib.Tactic.FieldSimp

/-!
# C18, C19, C20: the step-size control of `controlled_runge_kutta`

Exact real arithmetic.  `defaultAdjuster (realOps eps) maxDt` is `default_step_adjuster` with step-size limit
`maxDt`, where `0` means no limit.
-/

namespace Verif

variable {eps : ℝ}

/-! ## The operations -/

theorem realOps_max (a b : ℝ) : (realOps eps).max a b = max a b := by
  rw [NumOps.max, max_def]
  simp only [realOps, decide_eq_true_eq]
  by_cases h : a < b
  · rw [if_pos h, if_pos h.le]
  · rw [if_neg h]
    split_ifs with h2
    · exact le_antisymm h2 (not_lt.mp h)
    · rfl

theorem realOps_min (a b : ℝ) : (realOps eps).min a b = min a b := by
  rw [NumOps.min, min_def]
  simp only [realOps, decide_eq_true_eq]
  by_cases h : b < a
  · rw [if_pos h, if_neg (not_le.mpr h)]
  · rw [if_neg h, if_pos (not_lt.mp h)]

/-- Limiting a step size: `0` means no limit. -/
noncomputable def limitStep (maxDt dt : ℝ) : ℝ :=
  if maxDt = 0 then dt else if 0 < dt then min dt maxDt else max dt maxDt

theorem limitStep_eq (maxDt dt : ℝ) :
    (if !(realOps eps).eq maxDt (lit 0) then (realOps eps).time.minAbs dt maxDt else dt) = limitStep maxDt dt := by
  unfold limitStep
  by_cases h0 : maxDt = 0
  · simp [realOps, h0, lit]
  · have hmin : (realOps eps).time.stdMin dt maxDt = min dt maxDt := realOps_min (eps := eps) dt maxDt
    have hmax : (realOps eps).time.stdMax dt maxDt = max dt maxDt := realOps_max (eps := eps) dt maxDt
    have h1 : (!(realOps eps).eq maxDt (lit 0)) = true := by simp [realOps, h0, lit]
    rw [if_pos h1, if_neg h0, TimeArith.minAbs, hmin, hmax]
    by_cases hd : 0 < dt
    · rw [if_pos hd, if_pos (by simpa [realOps, NumOps.time, lit] using hd)]
    · rw [if_neg hd, if_neg (by simpa [realOps, NumOps.time, lit] using hd)]

/-! ## The factors -/

/-- The factor by which a rejected step is shortened. -/
noncomputable def decFactor (e : ℝ) (order : ℤ) : ℝ := max (9 / 10 * e ^ ((-1 : ℝ) / ((order - 1 : ℤ) : ℝ))) (1 / 5)

/-- The factor by which an accepted step is enlarged. -/
noncomputable def incFactor (e : ℝ) (order : ℤ) : ℝ :=
  if e < 1 / 2 then 9 / 10 * (max (5 ^ (-(order : ℝ))) e) ^ ((-1 : ℝ) / (order : ℝ)) else 1

theorem decFactor_bounds {e : ℝ} (he : 1 < e) {order : ℤ} (ho : 2 ≤ order) :
    1 / 5 ≤ decFactor e order ∧ decFactor e order < 9 / 10 := by
  unfold decFactor
  refine ⟨le_max_right _ _, max_lt ?_ (by norm_num)⟩
  have h1 : (0 : ℝ) < ((order - 1 : ℤ) : ℝ) := by exact_mod_cast (by omega : (0 : ℤ) < order - 1)
  have h2 : e ^ ((-1 : ℝ) / ((order - 1 : ℤ) : ℝ)) < 1 :=
    Real.rpow_lt_one_of_one_lt_of_neg he (div_neg_of_neg_of_pos (by norm_num) h1)
  linarith

/-- For orders up to 6 an accepted step is never followed by a shorter proposal. -/
theorem one_le_incFactor {e : ℝ} {order : ℤ} (ho : 1 ≤ order) (h6 : order ≤ 6) :
    1 ≤ incFactor e order := by
  unfold incFactor
  split_ifs with h
  · have hp : (0 : ℝ) < (order : ℝ) := by exact_mod_cast (by omega : (0 : ℤ) < order)
    set m := max ((5 : ℝ) ^ (-(order : ℝ))) e with hm
    have m0 : 0 < m := lt_of_lt_of_le (Real.rpow_pos_of_pos (by norm_num) _) (le_max_left _ _)
    have m1 : m ≤ 1 / 2 := by
      refine max_le ?_ h.le
      calc (5 : ℝ) ^ (-(order : ℝ)) ≤ 5 ^ (-1 : ℝ) :=
            Real.rpow_le_rpow_of_exponent_le (by norm_num) (by
              have : (1 : ℝ) ≤ order := by exact_mod_cast ho
              linarith)
        _ ≤ 1 / 2 := by rw [Real.rpow_neg_one]; norm_num
    have key : (10 / 9 : ℝ) ≤ m ^ ((-1 : ℝ) / (order : ℝ)) := by
      have e1 : (10 / 9 : ℝ) = ((10 / 9 : ℝ) ^ (order : ℝ)) ^ ((1 : ℝ) / order) := by
        rw [← Real.rpow_mul (by norm_num), mul_one_div_cancel hp.ne', Real.rpow_one]
      have e2 : m ^ ((-1 : ℝ) / (order : ℝ)) = (m⁻¹) ^ ((1 : ℝ) / order) := by
        rw [Real.inv_rpow m0.le, ← Real.rpow_neg m0.le, neg_div]
      rw [e1, e2]
      refine Real.rpow_le_rpow (by positivity) ?_ (by positivity)
      have h3 : (10 / 9 : ℝ) ^ (order : ℝ) ≤ (10 / 9 : ℝ) ^ ((6 : ℤ) : ℝ) :=
        Real.rpow_le_rpow_of_exponent_le (by norm_num) (by exact_mod_cast h6)
      have h4 : (10 / 9 : ℝ) ^ ((6 : ℤ) : ℝ) ≤ 2 := by
        rw [Real.rpow_intCast]; norm_num
      have h5 : (2 : ℝ) ≤ m⁻¹ := by
        rw [le_inv_comm₀ (by norm_num) m0]; linarith
      linarith
    linarith
  · exact le_rfl

theorem incFactor_le {e : ℝ} {order : ℤ} (ho : 1 ≤ order) : incFactor e order ≤ 9 / 2 := by
  unfold incFactor
  split_ifs with h
  · have hp : (0 : ℝ) < (order : ℝ) := by exact_mod_cast (by omega : (0 : ℤ) < order)
    have h5 : (0 : ℝ) < (5 : ℝ) ^ (-(order : ℝ)) := Real.rpow_pos_of_pos (by norm_num) _
    have : (max ((5 : ℝ) ^ (-(order : ℝ))) e) ^ ((-1 : ℝ) / (order : ℝ)) ≤ 5 := by
      calc (max ((5 : ℝ) ^ (-(order : ℝ))) e) ^ ((-1 : ℝ) / (order : ℝ))
          ≤ ((5 : ℝ) ^ (-(order : ℝ))) ^ ((-1 : ℝ) / (order : ℝ)) :=
            Real.rpow_le_rpow_of_nonpos h5 (le_max_left _ _) (div_nonpos_of_nonpos_of_nonneg (by norm_num) hp.le)
        _ = 5 := by
            rw [← Real.rpow_mul (by norm_num)]
            have : -(order : ℝ) * (-1 / (order : ℝ)) = 1 := by field_simp
            rw [this, Real.rpow_one]
    linarith
  · norm_num

/-- For every order the factor is more than 9/10. -/
theorem incFactor_gt {e : ℝ} {order : ℤ} (ho : 1 ≤ order) : 9 / 10 < incFactor e order := by
  unfold incFactor
  split_ifs with h
  · have hp : (0 : ℝ) < (order : ℝ) := by exact_mod_cast (by omega : (0 : ℤ) < order)
    have m0 : 0 < max ((5 : ℝ) ^ (-(order : ℝ))) e :=
      lt_of_lt_of_le (Real.rpow_pos_of_pos (by norm_num) _) (le_max_left _ _)
    have m1 : max ((5 : ℝ) ^ (-(order : ℝ))) e < 1 := by
      refine max_lt ?_ (by linarith)
      exact Real.rpow_lt_one_of_one_lt_of_neg (by norm_num) (by linarith)
    have : 1 < (max ((5 : ℝ) ^ (-(order : ℝ))) e) ^ ((-1 : ℝ) / (order : ℝ)) :=
      Real.one_lt_rpow_of_pos_of_lt_one_of_neg m0 m1 (div_neg_of_neg_of_pos (by norm_num) hp)
    linarith
  · norm_num

/-! ## C18 -/

/-- C18: a step rejected with error `e` is multiplied by `max (0.9 e^(-1/(order-1))) 0.2` and then limited. -/
theorem decrease_step_formula (maxDt dt e : ℝ) (order : ℤ) :
    (defaultAdjuster (realOps eps) maxDt).decreaseStep dt e order =
      limitStep maxDt (dt * max (9 / 10 * e ^ ((-1 : ℝ) / ((order - 1 : ℤ) : ℝ))) (1 / 5)) := by
  simp only [defaultAdjuster, decreaseStep, realOps_max, limitStep_eq]
  norm_num [lit, realOps]

/-- C18: without a step-size limit, a step rejected with error `e > 1` keeps its sign and shrinks to a magnitude
between 1/5 and 9/10 of the old one. -/
theorem decrease_step_bounds (dt e : ℝ) (order : ℤ) (he : 1 < e) (ho : 2 ≤ order) :
    let dt' := (defaultAdjuster (realOps eps) 0).decreaseStep dt e order
    1 / 5 * |dt| ≤ |dt'| ∧ |dt'| ≤ 9 / 10 * |dt| ∧ (0 < dt → 0 < dt') ∧ (dt < 0 → dt' < 0) := by
  intro dt'
  have h := decFactor_bounds he ho
  have e1 : dt' = dt * decFactor e order := (decrease_step_formula 0 dt e order).trans (by simp [limitStep, decFactor])
  have p : 0 < decFactor e order := by linarith [h.1]
  rw [e1, abs_mul, abs_of_pos p]
  refine ⟨by nlinarith [abs_nonneg dt], by nlinarith [abs_nonneg dt], fun hd => mul_pos hd p,
    fun hd => mul_neg_of_neg_of_pos hd p⟩

/-- The step size after consecutive rejections with the given errors. -/
noncomputable def afterRejections (eps : ℝ) (order : ℤ) (dt : ℝ) : List ℝ → ℝ
  | [] => dt
  | e :: es => afterRejections eps order ((defaultAdjuster (realOps eps) 0).decreaseStep dt e order) es

/-- C18: `k` consecutive rejections shrink the step at least by `0.9^k` and at most by `0.2^k`. -/
theorem rejections_shrink (order : ℤ) (ho : 2 ≤ order) (es : List ℝ) (hes : ∀ e ∈ es, 1 < e) :
    ∀ dt, (1 / 5) ^ es.length * |dt| ≤ |afterRejections eps order dt es| ∧
      |afterRejections eps order dt es| ≤ (9 / 10) ^ es.length * |dt| := by
  induction es with
  | nil => intro dt; simp [afterRejections]
  | cons e es ih =>
    intro dt
    have hb := decrease_step_bounds (eps := eps) dt e order (hes e (by simp)) ho
    have hi := ih (fun e' h' => hes e' (by simp [h'])) ((defaultAdjuster (realOps eps) 0).decreaseStep dt e order)
    simp only [afterRejections, List.length_cons, pow_succ]
    constructor
    · calc (1 / 5 : ℝ) ^ es.length * (1 / 5) * |dt| = (1 / 5) ^ es.length * (1 / 5 * |dt|) := by ring
        _ ≤ (1 / 5) ^ es.length * |(defaultAdjuster (realOps eps) 0).decreaseStep dt e order| :=
            mul_le_mul_of_nonneg_left hb.1 (by positivity)
        _ ≤ _ := hi.1
    · calc _ ≤ (9 / 10) ^ es.length * |(defaultAdjuster (realOps eps) 0).decreaseStep dt e order| := hi.2
        _ ≤ (9 / 10) ^ es.length * (9 / 10 * |dt|) := mul_le_mul_of_nonneg_left hb.2.1 (by positivity)
        _ = _ := by ring

/-! ## C19 -/

/-- C19: an accepted step is multiplied by the factor `incFactor` and then limited, or left alone if the error is at
least 1/2. -/
theorem increase_step_formula (maxDt dt e : ℝ) (order : ℤ) :
    (defaultAdjuster (realOps eps) maxDt).increaseStep dt e order =
      if e < 1 / 2 then limitStep maxDt (dt * incFactor e order) else dt := by
  simp only [defaultAdjuster, increaseStep, realOps_max, limitStep_eq, incFactor]
  by_cases h : e < 1 / 2
  · have h1 : (realOps eps).lt e (frac 1 2) = true := by simpa [realOps, frac, lit] using h
    rw [if_pos h1, if_pos h, if_pos h]
    norm_num [lit, realOps]
  · have h1 : ¬ (realOps eps).lt e (frac 1 2) = true := by simpa [realOps, frac, lit] using h
    rw [if_neg h1, if_neg h]

theorem increase_step_factor (dt e : ℝ) (order : ℤ) :
    (defaultAdjuster (realOps eps) 0).increaseStep dt e order = dt * incFactor e order := by
  rw [increase_step_formula]
  split_ifs with h
  · simp [limitStep]
  · rw [incFactor, if_neg h, mul_one]

/-- C19 (part): after an accepted step the proposal has the same sign and magnitude at most `4.5 |dt|` and more than
`0.9 |dt|`; for steppers of order at most 6 it is not shorter than the step just made; it is unchanged for
`1/2 ≤ e` and enlarged by 4.5 for `e ≤ 5^-order`. -/
theorem increase_step_bounds_partial (dt e : ℝ) (order : ℤ) (ho : 1 ≤ order) :
    let dt' := (defaultAdjuster (realOps eps) 0).increaseStep dt e order
    9 / 10 * |dt| ≤ |dt'| ∧ |dt'| ≤ 9 / 2 * |dt| ∧ (order ≤ 6 → |dt| ≤ |dt'|) ∧
    (0 < dt → 0 < dt') ∧ (dt < 0 → dt' < 0) ∧
    (1 / 2 ≤ e → dt' = dt) ∧ (e ≤ 5 ^ (-order) → dt' = 9 / 2 * dt) := by
  intro dt'
  have e1 : dt' = dt * incFactor e order := increase_step_factor dt e order
  have h1 := incFactor_gt (e := e) ho
  have h2 := incFactor_le (e := e) ho
  have p : 0 < incFactor e order := by linarith
  rw [e1, abs_mul, abs_of_pos p]
  refine ⟨by nlinarith [abs_nonneg dt], by nlinarith [abs_nonneg dt], fun h6 => ?_, fun hd => mul_pos hd p,
    fun hd => mul_neg_of_neg_of_pos hd p, fun he => ?_, fun he => ?_⟩
  · have := one_le_incFactor (e := e) ho h6
    nlinarith [abs_nonneg dt]
  · rw [incFactor, if_neg (by linarith), mul_one]
  · have hp : (0 : ℝ) < (order : ℝ) := by exact_mod_cast (by omega : (0 : ℤ) < order)
    have he' : e ≤ (5 : ℝ) ^ (-(order : ℝ)) := by
      have : (5 : ℝ) ^ (-(order : ℝ)) = 5 ^ (-order) := by
        rw [← Real.rpow_intCast]; push_cast; rfl
      rw [this]; exact he
    have lt : (5 : ℝ) ^ (-(order : ℝ)) < 1 / 2 := by
      calc (5 : ℝ) ^ (-(order : ℝ)) ≤ 5 ^ (-1 : ℝ) :=
            Real.rpow_le_rpow_of_exponent_le (by norm_num) (by
              have : (1 : ℝ) ≤ order := by exact_mod_cast ho
              linarith)
        _ < 1 / 2 := by rw [Real.rpow_neg_one]; norm_num
    rw [incFactor, if_pos (by linarith), max_eq_left he', ← Real.rpow_mul (by norm_num)]
    have : -(order : ℝ) * (-1 / (order : ℝ)) = 1 := by field_simp
    rw [this, Real.rpow_one]
    ring

/-- C19 is violated for steppers of order 7 or more (`runge_kutta_fehlberg78` has order 8): a step accepted with
error 0.49 (any error close enough to 1/2) is followed by a shorter one. -/
theorem increase_step_shrinks (dt : ℝ) (hdt : dt ≠ 0) (order : ℤ) (ho : 7 ≤ order) :
    |(defaultAdjuster (realOps eps) 0).increaseStep dt (49 / 100) order| < |dt| := by
  rw [increase_step_factor, abs_mul]
  have hp : (0 : ℝ) < (order : ℝ) := by exact_mod_cast (by omega : (0 : ℤ) < order)
  have h1 := incFactor_gt (e := 49 / 100) (order := order) (by omega)
  have lt : incFactor (49 / 100) order < 1 := by
    rw [incFactor, if_pos (by norm_num)]
    have le5 : (5 : ℝ) ^ (-(order : ℝ)) ≤ 49 / 100 := by
      calc (5 : ℝ) ^ (-(order : ℝ)) ≤ 5 ^ (-1 : ℝ) :=
            Real.rpow_le_rpow_of_exponent_le (by norm_num) (by
              have : (7 : ℝ) ≤ order := by exact_mod_cast ho
              linarith)
        _ ≤ 49 / 100 := by rw [Real.rpow_neg_one]; norm_num
    rw [max_eq_right le5]
    have key : (49 / 100 : ℝ) ^ ((-1 : ℝ) / (order : ℝ)) < 10 / 9 := by
      have e1 : (10 / 9 : ℝ) = ((10 / 9 : ℝ) ^ (order : ℝ)) ^ ((1 : ℝ) / order) := by
        rw [← Real.rpow_mul (by norm_num), mul_one_div_cancel hp.ne', Real.rpow_one]
      have e2 : (49 / 100 : ℝ) ^ ((-1 : ℝ) / (order : ℝ)) = ((49 / 100 : ℝ)⁻¹) ^ ((1 : ℝ) / order) := by
        rw [Real.inv_rpow (by norm_num), ← Real.rpow_neg (by norm_num), neg_div]
      rw [e1, e2]
      refine Real.rpow_lt_rpow (by positivity) ?_ (by positivity)
      have h3 : (10 / 9 : ℝ) ^ ((7 : ℤ) : ℝ) ≤ (10 / 9 : ℝ) ^ (order : ℝ) :=
        Real.rpow_le_rpow_of_exponent_le (by norm_num) (by exact_mod_cast ho)
      have h4 : (49 / 100 : ℝ)⁻¹ < (10 / 9 : ℝ) ^ ((7 : ℤ) : ℝ) := by
        rw [Real.rpow_intCast]; norm_num
      linarith
    linarith
  rw [abs_of_pos (by linarith : 0 < incFactor (49 / 100) order)]
  have : 0 < |dt| := abs_pos.mpr hdt
  nlinarith

/-! ## C20 -/

theorem decFactor_pos (e : ℝ) (order : ℤ) : 0 < decFactor e order :=
  lt_of_lt_of_le (by norm_num) (le_max_right _ _)

theorem incFactor_pos (e : ℝ) {order : ℤ} (ho : 1 ≤ order) : 0 < incFactor e order :=
  lt_trans (by norm_num) (incFactor_gt ho)

/-- a limited step points in the direction of the limit and is not longer -/
theorem limitStep_spec {m dt : ℝ} (h : SameDir m dt) : SameDir m (limitStep m dt) ∧ |limitStep m dt| ≤ |m| := by
  unfold limitStep
  rcases h with ⟨hm, hd⟩ | ⟨hm, hd⟩
  · rw [if_neg hm.ne', if_pos hd, abs_of_pos hm, abs_of_pos (lt_min hd hm)]
    exact ⟨Or.inl ⟨hm, lt_min hd hm⟩, min_le_right _ _⟩
  · rw [if_neg hm.ne, if_neg (not_lt.mpr hd.le), abs_of_neg hm, abs_of_neg (max_lt hd hm)]
    exact ⟨Or.inr ⟨hm, max_lt hd hm⟩, by linarith [le_max_right dt m]⟩

theorem SameDir.scale {m dt c : ℝ} (h : SameDir m dt) (hc : 0 < c) : SameDir m (dt * c) := by
  rcases h with ⟨hm, hd⟩ | ⟨hm, hd⟩
  · exact Or.inl ⟨hm, mul_pos hd hc⟩
  · exact Or.inr ⟨hm, mul_neg_of_neg_of_pos hd hc⟩

/-- C20: a step size that points in the direction of the limit passes the check iff it exceeds the limit by at most
`eps`. -/
theorem check_limit_iff {m dt : ℝ} (h : SameDir m dt) :
    (defaultAdjuster (realOps eps) m).checkStepSizeLimit dt = true ↔ |dt| ≤ |m| + eps := by
  simp only [defaultAdjuster, checkStepSizeLimit]
  rcases h with ⟨hm, hd⟩ | ⟨hm, hd⟩
  · have h1 : (!(realOps eps).eq m (lit 0)) = true := by simp [realOps, hm.ne', lit]
    rw [if_pos h1, TimeArith.lessEqWithSign, if_pos (by simpa [realOps, NumOps.time, lit] using hd),
      abs_of_pos hm, abs_of_pos hd]
    simp only [realOps, NumOps.time, decide_eq_true_eq]
    constructor <;> intro h <;> linarith
  · have h1 : (!(realOps eps).eq m (lit 0)) = true := by simp [realOps, hm.ne, lit]
    rw [if_pos h1, TimeArith.lessEqWithSign, if_neg (by simpa [realOps, NumOps.time, lit] using hd.le),
      abs_of_neg hm, abs_of_neg hd]
    simp only [realOps, NumOps.time, decide_eq_true_eq]
    constructor <;> intro h <;> linarith

section
variable {V W : Type} [StateOps ℝ V]

/-- C20: a `try_step` of `controlled_runge_kutta` with the default step adjuster, a limit `m` and a step size `dt` in the direction
of `m` (forward or backward), whatever the error estimate is: the proposed step size again points in this
direction and exceeds the limit by at most `eps`; a successful step was itself within the limit; a try with a step
over the limit fails, sets `dt = m` and leaves the state and time alone. -/
theorem try_step_max_dt_partial (P : CtrlParams ℝ V) (s : ErrorStepper ℝ) (hs : s.WellFormed) (sys : Sys ℝ V W)
    (x : ℕ) (t dt m : ℝ) (heps : 0 ≤ eps) (hP : P.adjuster = defaultAdjuster (realOps eps) m)
    (ho : 1 ≤ P.stepperOrder)
    (hdir : SameDir m dt) (h h' : Heap ℝ V W) (r : TryOut ℝ)
    (hr : tryStep1 P s.errImpl sys (.user x) t dt h = .ok r h') :
    SameDir m r.dt ∧ |r.dt| ≤ |m| + eps ∧ (r.success = true → |dt| ≤ |m| + eps) ∧
    (|m| + eps < |dt| → r = ⟨false, t, m⟩ ∧ h'.state (.user x) = h.state (.user x)) := by
  have mself : SameDir m m := by
    rcases hdir with ⟨hm, -⟩ | ⟨hm, -⟩
    · exact Or.inl ⟨hm, hm⟩
    · exact Or.inr ⟨hm, hm⟩
  have hci := check_limit_iff (eps := eps) hdir
  obtain ⟨-, k, w, -, hcase⟩ := try_step_result P s hs sys x t dt h h' r hr
  rw [hP] at hcase
  rcases hcase with ⟨hc, rfl, -, hx⟩ | ⟨hc, y, e, -, hcase⟩
  · refine ⟨mself, ?_, by simp, fun _ => ⟨rfl, hx⟩⟩
    change |m| ≤ |m| + eps
    linarith
  · have hle := hci.mp hc
    rcases hcase with ⟨-, rfl, -⟩ | ⟨-, rfl, -⟩
    · have := limitStep_spec (m := m) (hdir.scale (decFactor_pos
        (P.checker.error (h.state (.user x)) k e dt).2 P.errorOrder))
      rw [decrease_step_formula]
      refine ⟨this.1, ?_, by simp, fun hgt => absurd hgt (not_lt.mpr hle)⟩
      exact this.2.trans (by linarith)
    · rw [increase_step_formula]
      refine ⟨?_, ?_, fun _ => hle, fun hgt => absurd hgt (not_lt.mpr hle)⟩
      all_goals
        simp only
        split_ifs
        · have := limitStep_spec (m := m) (hdir.scale (incFactor_pos
            (P.checker.error (h.state (.user x)) k e dt).2 ho))
          first | exact this.1 | exact this.2.trans (by linarith)
        · assumption

/-- C20 is violated when `max_dt` and the step size have opposite signs: the try fails and the step size becomes
`max_dt`, that is, the direction of integration is reversed. -/
theorem try_step_max_dt_flips (P : CtrlParams ℝ V) (s : ErrorStepper ℝ) (hs : s.WellFormed) (sys : Sys ℝ V W)
    (x : ℕ) (t dt m : ℝ) (heps : eps < m) (hP : P.adjuster = defaultAdjuster (realOps eps) m)
    (hm : 0 < m) (hdt : dt < 0) (h h' : Heap ℝ V W) (r : TryOut ℝ)
    (hr : tryStep1 P s.errImpl sys (.user x) t dt h = .ok r h') :
    r = ⟨false, t, m⟩ := by
  obtain ⟨-, k, w, -, hcase⟩ := try_step_result P s hs sys x t dt h h' r hr
  rw [hP] at hcase
  have hc : (defaultAdjuster (realOps eps) m).checkStepSizeLimit dt = false := by
    simp only [defaultAdjuster, checkStepSizeLimit]
    have h1 : (!(realOps eps).eq m (lit 0)) = true := by simp [realOps, hm.ne', lit]
    rw [if_pos h1, TimeArith.lessEqWithSign, if_neg (by simpa [realOps, NumOps.time, lit] using hdt.le)]
    simp only [realOps, NumOps.time, decide_eq_false_iff_not, not_le]
    linarith
  rcases hcase with ⟨-, h2, -⟩ | ⟨hc', -⟩
  · exact h2
  · rw [hc] at hc'; cases hc'

end

/-! ## The same, seen by the caller of `try_step` -/

section
variable {V W : Type} [StateOps ℝ V]

/-- C18 and C19 for the caller of `try_step`, without a step-size limit and with the test `error > 1`: a failed try
leaves a step size between 1/5 and 9/10 of the old one, a successful one between 9/10 and 9/2 of the old one, at
least the old one for steppers of order at most 6; the sign never changes. -/
theorem try_step_dt_bounds (P : CtrlParams ℝ V) (s : ErrorStepper ℝ) (hs : s.WellFormed) (sys : Sys ℝ V W)
    (x : ℕ) (t dt : ℝ) (hP : P.adjuster = defaultAdjuster (realOps eps) 0) (hg : ∀ e, P.gtOne e = decide (1 < e))
    (ho : 1 ≤ P.stepperOrder) (he : 2 ≤ P.errorOrder) (h h' : Heap ℝ V W) (r : TryOut ℝ)
    (hr : tryStep1 P s.errImpl sys (.user x) t dt h = .ok r h') :
    (0 < dt → 0 < r.dt) ∧ (dt < 0 → r.dt < 0) ∧
    (r.success = false → 1 / 5 * |dt| ≤ |r.dt| ∧ |r.dt| ≤ 9 / 10 * |dt|) ∧
    (r.success = true → 9 / 10 * |dt| ≤ |r.dt| ∧ |r.dt| ≤ 9 / 2 * |dt| ∧
      (P.stepperOrder ≤ 6 → |dt| ≤ |r.dt|)) := by
  obtain ⟨-, k, w, -, hcase⟩ := try_step_result P s hs sys x t dt h h' r hr
  rw [hP] at hcase
  rcases hcase with ⟨hc, rfl, -, hx⟩ | ⟨hc, y, e, -, hcase⟩
  · simp [defaultAdjuster, checkStepSizeLimit, realOps, lit] at hc
  · rcases hcase with ⟨hgt, rfl, -⟩ | ⟨-, rfl, -⟩
    · rw [hg] at hgt
      obtain ⟨b1, b2, b3, b4⟩ := decrease_step_bounds (eps := eps) dt _ P.errorOrder (of_decide_eq_true hgt) he
      exact ⟨b3, b4, fun _ => ⟨b1, b2⟩, by simp⟩
    · obtain ⟨b1, b2, b3, b4, b5, -⟩ := increase_step_bounds_partial (eps := eps) dt
        (P.checker.error (h.state (.user x)) k e dt).2 P.stepperOrder ho
      exact ⟨b4, b5, by simp, fun _ => ⟨b1, b2, b3⟩⟩

/-- The default controller with limit `m`, for a system of any size. -/
noncomputable def exDefaultCtrl (m : ℝ) : CtrlParams ℝ (List ℝ) where
  gtOne e := decide (1 < e)
  checker := defaultErrorChecker (realOps 0) (1 / 1000000) (1 / 1000000) 1 1
  adjuster := defaultAdjuster (realOps 0) m
  stepperOrder := 5
  errorOrder := 4

/-- The hypotheses of the theorems above are met by the default controller over the Cash-Karp stepper: the call
returns for every right-hand side that does not throw. -/
example [StateOps ℝ (List ℝ)] (f : List ℝ → ℝ → List ℝ) (h : Heap ℝ (List ℝ) ℕ) (m dt : ℝ) :
    ∃ r h', tryStep1 (exDefaultCtrl m) (ErrorStepper.cashKarp (K := ℝ)).errImpl (fun v t w => .ok (f v t) (w + 1))
      (.user 0) 0 dt h = .ok r h' :=
  try_step_returns (exDefaultCtrl m) .cashKarp trivial _ (fun v t w => ⟨f v t, w + 1, rfl⟩) 0 0 dt h

end

end Verif
