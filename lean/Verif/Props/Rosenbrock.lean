import Verif.Lemmas.Rosenbrock
import Verif.Props.StepAdjust
import Mathlib.Tactic.NormNum
import Mathlib.Tactic.Linarith
import Mathlib.Tactic.FieldSimp
import Mathlib.Tactic.Positivity
import Mathlib.Tactic.Module

/-!
# C22: `rosenbrock4` and `rosenbrock4_controller`
-/

set_option linter.unusedSectionVars false

namespace Verif
variable {K V W Mat : Type}

section Exact
variable [Add K] [Sub K] [Mul K] [Div K] [IntCast K] [StateOps K V]

/-! ## The step -/

/-- `do_step`, in place or out of place, with or without error output, makes one step of the method: the same calls of
the system function and its Jacobian and the same result; no other object of the user changes, and none at all
if the system function throws. -/
theorem ros_do_step (C : RosCoef K) (solve : K → Mat → V → V) (sys : Sys K V W) (jac : Jac K V W Mat) (x out xe : ℕ)
    (t dt : K) (h : Heap K V W) :
    (match rosStep C solve sys jac (h.state (.user x)) t dt h.world with
    | .ok r w => ∃ h', rosDoStep6 C solve sys jac (.user x) t (.user out) dt (.user xe) h = .ok () h' ∧ h'.world = w ∧
        h'.state (.user out) = r.x K ∧ (out ≠ xe → h'.state (.user xe) = r.g6) ∧
        ∀ n, n ≠ out → n ≠ xe → h'.state (.user n) = h.state (.user n)
    | .err e w => ∃ h', rosDoStep6 C solve sys jac (.user x) t (.user out) dt (.user xe) h = .err e h' ∧ h'.world = w ∧
        ∀ n, h'.state (.user n) = h.state (.user n)
    | .ub => rosDoStep6 C solve sys jac (.user x) t (.user out) dt (.user xe) h = .ub
    | .div => rosDoStep6 C solve sys jac (.user x) t (.user out) dt (.user xe) h = .div) ∧
    (match rosStep C solve sys jac (h.state (.user x)) t dt h.world with
    | .ok r w => ∃ h', rosDoStep3 C solve sys jac (.user x) t (.user out) dt h = .ok () h' ∧ h'.world = w ∧
        h'.state (.user out) = r.x K ∧ ∀ n, n ≠ out → h'.state (.user n) = h.state (.user n)
    | .err e w => ∃ h', rosDoStep3 C solve sys jac (.user x) t (.user out) dt h = .err e h' ∧ h'.world = w ∧
        ∀ n, h'.state (.user n) = h.state (.user n)
    | .ub => rosDoStep3 C solve sys jac (.user x) t (.user out) dt h = .ub
    | .div => rosDoStep3 C solve sys jac (.user x) t (.user out) dt h = .div) := by
  have A := ros_implements C solve sys jac (.user x) t (.user out) dt (.user xe) h (by simp) (by simp [rXtmp]) (by simp)
    (by simp)
  have B := ros_implements C solve sys jac (.user x) t (.user out) dt rXerr h (by simp) (by simp [rXerr, rXtmp])
    (by simp [rXerr, Loc.ownedBy]) (by simp)
  unfold Implements at A B
  cases hs : rosStep C solve sys jac (h.state (.user x)) t dt h.world with
  | ok r w =>
    rw [hs] at A B
    obtain ⟨h', a1, a2, a3⟩ := A
    obtain ⟨h'', b1, b2, b3⟩ := B
    refine ⟨⟨h', a1, a2, ?_, fun hne => ?_, fun n n1 n2 => ?_⟩, ⟨h'', b1, b2, ?_, fun n n1 => ?_⟩⟩
    · rw [(a3 _ (ownedBy_user _ _)).1]; simp [rosOuts]
    · rw [(a3 _ (ownedBy_user _ _)).1]; simp [rosOuts, Heap.set_state_apply, hne.symm]
    · rw [(a3 _ (ownedBy_user _ _)).1]; simp [rosOuts, Heap.set_state_apply, n1, n2, rG]
    · rw [(b3 _ (ownedBy_user _ _)).1]; simp [rosOuts]
    · rw [(b3 _ (ownedBy_user _ _)).1]; simp [rosOuts, Heap.set_state_apply, n1, rG, rXerr]
  | err e w =>
    rw [hs] at A B
    obtain ⟨h', a1, a2, a3⟩ := A
    obtain ⟨h'', b1, b2, b3⟩ := B
    exact ⟨⟨h', a1, a2, fun n => (a3 _ (ownedBy_user _ _) (by simp [rosGs, rG])).1⟩,
      ⟨h'', b1, b2, fun n => (b3 _ (ownedBy_user _ _) (by simp [rosGs, rG])).1⟩⟩
  | ub => rw [hs] at A B; exact ⟨A, B⟩
  | div => rw [hs] at A B; exact ⟨A, B⟩

/-- C22: `try_step( sys , x , t , dt )` makes one trial: it reports success iff the trial is accepted, `x` changes to the
result of the step and `t` advances by `dt` only on success; no other object of the user changes; if the system function
throws, nothing changes, not even the memory of the controller. -/
theorem ros_try_step (P : RosParams K V) (C : RosCoef K) (solve : K → Mat → V → V) (sys : Sys K V W)
    (jac : Jac K V W Mat) (x : ℕ) (t dt : K) (h : Heap K V W) :
    match rosTrial P C solve sys jac (rosMem h) (h.state (.user x)) t dt h.world with
    | .ok (T, m) w => ∃ h', rosTry4 P C solve sys jac (.user x) t dt h = .ok (T.out t dt) h' ∧ h'.world = w ∧
        rosMem h' = m ∧
        (h'.state (.user x) = match T with
          | .accepted r _ _ => r.x K
          | _ => h.state (.user x)) ∧
        ∀ n, n ≠ x → h'.state (.user n) = h.state (.user n)
    | .err e w => ∃ h', rosTry4 P C solve sys jac (.user x) t dt h = .err e h' ∧ h'.world = w ∧ rosMem h' = rosMem h ∧
        ∀ n, h'.state (.user n) = h.state (.user n)
    | .ub => rosTry4 P C solve sys jac (.user x) t dt h = .ub
    | .div => rosTry4 P C solve sys jac (.user x) t dt h = .div := by
  have H := rosTry5_spec P C solve sys jac (.user x) t mXnew dt h (by simp) (by simp [mXnew, Loc.ownedBy])
    (by simp [mXnew, mXerr]) (by simp [mXnew])
  unfold rosTry4
  rw [M.bind_apply]
  cases hT : rosTrial P C solve sys jac (rosMem h) (h.state (.user x)) t dt h.world with
  | ok p w =>
    obtain ⟨T, m⟩ := p
    rw [hT] at H
    obtain ⟨h', a1, a2, a3, a4, -, a5⟩ := H
    have fr : ∀ n, h'.state (.user n) = h.state (.user n) := fun n => (a5 _ (ownedBy_user _ _) (by simp [mXnew])).1
    rw [a1]
    cases T with
    | limited d => exact ⟨h', rfl, a2, a3, fr x, fun n _ => fr n⟩
    | rejected r e d => exact ⟨h', rfl, a2, a3, fr x, fun n _ => fr n⟩
    | accepted r e d =>
      refine ⟨h'.set (.user x) (h'.state mXnew), rfl, a2, a3, ?_, fun n hn => ?_⟩
      · simpa using (a4 r rfl).1
      · rw [Heap.set_state_ne _ _ (by simpa using hn), fr]
  | err e w =>
    rw [hT] at H
    obtain ⟨h', a1, a2, a3, a5⟩ := H
    rw [a1]
    exact ⟨h', rfl, a2, a3, fun n => (a5 _ (ownedBy_user _ _)).1⟩
  | ub => rw [hT] at H; simp only at H ⊢; rw [H]
  | div => rw [hT] at H; simp only at H ⊢; rw [H]

/-- the trial that belongs to a `try_step` that returned -/
theorem ros_try_result (P : RosParams K V) (C : RosCoef K) (solve : K → Mat → V → V) (sys : Sys K V W)
    (jac : Jac K V W Mat) (x : ℕ) (t dt : K) (h h' : Heap K V W) (r : TryOut K)
    (hr : rosTry4 P C solve sys jac (.user x) t dt h = .ok r h') :
    ((!P.O.eq P.maxDt (lit 0) && P.O.time.lessWithSign P.maxDt dt dt) = true ∧ r = ⟨false, t, P.maxDt⟩ ∧
      rosMem h' = rosMem h ∧ h'.state (.user x) = h.state (.user x)) ∨
    ((!P.O.eq P.maxDt (lit 0) && P.O.time.lessWithSign P.maxDt dt dt) = false ∧ ∃ (s : RosStages V) (w : W) (err : K),
      rosStep C solve sys jac (h.state (.user x)) t dt h.world = .ok s w ∧ h'.world = w ∧
      err = P.error (s.x K) (h.state (.user x)) s.g6 ∧
      r.success = (rosDecide P.O P.maxDt (rosMem h) dt err).1 ∧ r.t = (if r.success then t + dt else t) ∧
      r.dt = (rosDecide P.O P.maxDt (rosMem h) dt err).2.1 ∧ rosMem h' = (rosDecide P.O P.maxDt (rosMem h) dt err).2.2 ∧
      h'.state (.user x) = if r.success then s.x K else h.state (.user x)) := by
  have H := ros_try_step P C solve sys jac x t dt h
  unfold rosTrial at H
  by_cases hc : (!P.O.eq P.maxDt (lit 0) && P.O.time.lessWithSign P.maxDt dt dt) = true
  · left
    rw [if_pos hc, M.pure_apply] at H
    obtain ⟨h1, a1, -, a2, a3, -⟩ := H
    rw [hr] at a1
    injection a1 with e1 e2
    subst e1 e2
    exact ⟨hc, rfl, a2, a3⟩
  · right
    rw [if_neg hc, M.bind_apply] at H
    refine ⟨by simpa using hc, ?_⟩
    cases hs : rosStep C solve sys jac (h.state (.user x)) t dt h.world with
    | ok s w =>
      rw [hs] at H
      simp only [M.pure_apply] at H
      obtain ⟨h1, a1, a2, a3, a4, -⟩ := H
      rw [hr] at a1
      injection a1 with e1 e2
      subst e2
      refine ⟨s, w, _, rfl, a2, rfl, ?_⟩
      cases hd : (rosDecide P.O P.maxDt (rosMem h) dt (P.error (s.x K) (h.state (.user x)) s.g6)).1 with
      | false =>
        rw [hd] at e1 a4
        simp only [Bool.false_eq_true, if_false] at e1 a4
        subst e1
        exact ⟨rfl, rfl, rfl, a3, a4⟩
      | true =>
        rw [hd] at e1 a4
        simp only [if_true] at e1 a4
        subst e1
        exact ⟨rfl, rfl, rfl, a3, a4⟩
    | err e w => rw [hs] at H; obtain ⟨_, a1, -⟩ := H; rw [hr] at a1; cases a1
    | ub => rw [hs] at H; simp only at H; rw [hr] at H; cases H
    | div => rw [hs] at H; simp only at H; rw [hr] at H; cases H

/-- C22, C50: a trial is successful iff its error compares `<= 1`.  In particular an error that is not a number, for which
all comparisons are false, leads to a rejection, and the step size is divided by 5. -/
theorem ros_accept_iff (O : NumOps K) (maxDt : K) (m : RosMem K) (dt err : K) :
    (rosDecide O maxDt m dt err).1 = O.le err (lit 1) ∧
    ((∀ a b, O.le err b = false ∧ O.lt (O.pow err a / b) (lit 5) = false) → O.lt (lit 1 / lit 6) (lit 5) = true →
      rosDecide O maxDt m dt err = (false, dt / lit 5, ⟨m.first, m.errOld, m.dtOld, true⟩)) := by
  constructor
  · unfold rosDecide
    cases O.le err (lit 1) <;> rfl
  · intro hn h5
    unfold rosDecide rosClamp NumOps.min NumOps.max
    simp only [(hn (lit 1) (lit 1)).1, (hn (frac 1 4) rosSafe).2, Bool.false_eq_true, if_false, h5, if_true]

end Exact

/-! ## Bounds on the step size -/

section Real
variable {eps : ℝ}

/-- the factor by which a step size is divided stays in `[1/6, 5]` -/
theorem rosClamp_bounds (f : ℝ) : 1 / 6 ≤ rosClamp (realOps eps) f ∧ rosClamp (realOps eps) f ≤ 5 := by
  unfold rosClamp
  rw [realOps_max, realOps_min]
  simp only [lit]
  push_cast
  exact ⟨le_max_left _ _, max_le (by norm_num) (min_le_left _ _)⟩

/-- for a rejected step the divisor is at least `10/9` -/
theorem rosClamp_reject {e : ℝ} (he : 1 < e) :
    10 / 9 ≤ rosClamp (realOps eps) ((realOps eps).pow e (frac 1 4) / rosSafe) := by
  unfold rosClamp
  rw [realOps_max, realOps_min]
  have h1 : (1 : ℝ) ≤ e ^ ((1 : ℝ) / 4) := Real.one_le_rpow he.le (by norm_num)
  simp only [lit, realOps, frac, rosSafe]
  push_cast
  refine le_trans (le_min (by norm_num) ?_) (le_max_right _ _)
  rw [le_div_iff₀ (by norm_num)]
  linarith

/-- the step size before it is limited by `max_dt`: factors -/
theorem rosDecide_factor (m : RosMem ℝ) (dt err : ℝ) : ∃ c : ℝ,
    (rosDecide (realOps eps) 0 m dt err).2.1 = dt * c ∧ 1 / 5 ≤ c ∧ c ≤ 6 ∧
    (1 < err → c ≤ 9 / 10) ∧ (m.lastRejected = true → c ≤ 1) := by
  have key : ∀ a : ℝ, 1 / 6 ≤ a → a ≤ 5 → 1 / 5 ≤ a⁻¹ ∧ a⁻¹ ≤ 6 := by
    intro a h1 h2
    have : 0 < a := by linarith
    constructor
    · rw [one_div]; exact inv_anti₀ this h2
    · rw [inv_le_comm₀ this (by norm_num)]; linarith
  set fac := rosClamp (realOps eps) ((realOps eps).pow err (frac 1 4) / rosSafe) with hfac
  obtain ⟨f1, f2⟩ := rosClamp_bounds (eps := eps) ((realOps eps).pow err (frac 1 4) / rosSafe)
  rw [← hfac] at f1 f2
  have z : (!(realOps eps).eq (0 : ℝ) (lit 0)) = false := by simp [realOps, lit]
  by_cases he : err ≤ 1
  · have hle : (realOps eps).le err (lit 1) = true := by simp [realOps, lit, he]
    -- the divisor
    obtain ⟨a, ha1, ha2, hdec⟩ : ∃ a : ℝ, 1 / 6 ≤ a ∧ a ≤ 5 ∧ (rosDecide (realOps eps) 0 m dt err).2.1 =
        if m.lastRejected then (if (realOps eps).le (lit 0) dt then (realOps eps).min (dt / a) dt
          else (realOps eps).max (dt / a) dt) else dt / a := by
      unfold rosDecide
      simp only [hle, if_true, z, Bool.false_eq_true, if_false]
      by_cases hf : m.first = true
      · exact ⟨fac, f1, f2, by simp only [hf, if_true]; rfl⟩
      · have hf' : m.first = false := by simpa using hf
        refine ⟨max fac (rosClamp (realOps eps)
          (m.dtOld / dt * (realOps eps).pow (err * err / m.errOld) (frac 1 4) / rosSafe)), ?_, ?_, ?_⟩
        · exact le_trans f1 (le_max_left _ _)
        · exact max_le f2 (rosClamp_bounds _).2
        · simp only [hf', Bool.false_eq_true, if_false, realOps_max]; rfl
    obtain ⟨k1, k2⟩ := key a ha1 ha2
    rw [hdec]
    by_cases hl : m.lastRejected = true
    · refine ⟨min a⁻¹ 1, ?_, le_min k1 (by norm_num), (min_le_left _ _).trans k2, fun h => absurd he (not_le.mpr h),
        fun _ => min_le_right _ _⟩
      rw [if_pos hl]
      by_cases hd : 0 ≤ dt
      · rw [if_pos (by simpa [realOps, lit] using hd), realOps_min, mul_min_of_nonneg _ _ hd, mul_one, div_eq_mul_inv]
      · have hd' : dt ≤ 0 := (not_le.mp hd).le
        rw [if_neg (by simpa [realOps, lit] using hd), realOps_max, div_eq_mul_inv]
        have := mul_min_of_nonneg a⁻¹ 1 (neg_nonneg.mpr hd')
        rw [neg_mul, neg_mul, neg_mul, min_neg_neg] at this
        have := neg_injective this
        rw [this]; simp
    · refine ⟨a⁻¹, ?_, k1, k2, fun h => absurd he (not_le.mpr h), fun h => absurd h hl⟩
      rw [if_neg hl, div_eq_mul_inv]
  · have hle : (realOps eps).le err (lit 1) = false := by simpa [realOps, lit] using he
    have hr := rosClamp_reject (eps := eps) (not_le.mp he)
    rw [← hfac] at hr
    obtain ⟨k1, k2⟩ := key fac f1 f2
    have k3 : fac⁻¹ ≤ 9 / 10 := by
      rw [inv_le_comm₀ (by linarith) (by norm_num)]; linarith
    refine ⟨fac⁻¹, ?_, k1, k2, fun _ => k3, fun _ => k3.trans (by norm_num)⟩
    unfold rosDecide
    simp only [hle, Bool.false_eq_true, if_false]
    rw [div_eq_mul_inv]

variable {V W : Type} [StateOps ℝ V]

/-- **C22**: every `try_step` of `rosenbrock4_controller` (without `max_dt`) that returns, from any state of the
controller, with any step size and any error measure: success iff the error is at most 1; `x` becomes the result of the
step and `t` advances by `dt` on success, both are unchanged otherwise; the next step size is a multiple of the old one
by a factor between 1/5 and 6, at most 9/10 after a rejection, and at most 1 if the previous trial was rejected; a
rejection is remembered, a success clears the memory of it. -/
theorem ros_try_step_bounds (P : RosParams ℝ V) (hO : P.O = realOps eps) (hm : P.maxDt = 0) (C : RosCoef ℝ)
    (solve : ℝ → Mat → V → V) (sys : Sys ℝ V W) (jac : Jac ℝ V W Mat) (x : ℕ) (t dt : ℝ) (h h' : Heap ℝ V W)
    (r : TryOut ℝ) (hr : rosTry4 P C solve sys jac (.user x) t dt h = .ok r h') :
    ∃ (s : RosStages V) (w : W), rosStep C solve sys jac (h.state (.user x)) t dt h.world = .ok s w ∧
      (r.success = true ↔ P.error (s.x ℝ) (h.state (.user x)) s.g6 ≤ 1) ∧
      (r.success = true → h'.state (.user x) = s.x ℝ ∧ r.t = t + dt) ∧
      (r.success = false → h'.state (.user x) = h.state (.user x) ∧ r.t = t) ∧
      (rosMem h').lastRejected = !r.success ∧
      ∃ c : ℝ, r.dt = dt * c ∧ 1 / 5 ≤ c ∧ c ≤ 6 ∧ (r.success = false → c ≤ 9 / 10) ∧
        ((rosMem h).lastRejected = true → c ≤ 1) := by
  rcases ros_try_result P C solve sys jac x t dt h h' r hr with ⟨hc, -⟩ | ⟨-, s, w, err, h1, -, h2, h3, h4, h5, h6, h7⟩
  · rw [hm, hO] at hc
    simp [realOps, lit] at hc
  · rw [hm, hO] at h3 h5 h6
    obtain ⟨c, c1, c2, c3, c4, c5⟩ := rosDecide_factor (eps := eps) (rosMem h) dt err
    have hs : r.success = decide (err ≤ 1) := by
      rw [h3, (ros_accept_iff _ _ _ _ _).1]; simp [realOps, lit]
    refine ⟨s, w, h1, ?_, ?_, ?_, ?_, c, h5.trans c1, c2, c3, ?_, c5⟩
    · rw [hs, h2]; simp
    · intro hs'; rw [hs'] at h4 h7; exact ⟨h7, h4⟩
    · intro hs'; rw [hs'] at h4 h7; exact ⟨by simpa using h7, by simpa using h4⟩
    · rw [h6, hs]
      unfold rosDecide
      by_cases he : err ≤ 1
      · simp [realOps, lit, he]
      · simp [realOps, lit, he]
    · intro hs'
      rw [hs] at hs'
      exact c4 (by simpa using hs')

/-- **C22** (history): a successful trial that comes directly after a rejected one proposes no larger step, whatever the
user did to the states, the time and the step size in between. -/
theorem ros_no_growth_after_rejection (P : RosParams ℝ V) (hO : P.O = realOps eps) (hm : P.maxDt = 0) (C : RosCoef ℝ)
    (solve : ℝ → Mat → V → V) (sys sys' : Sys ℝ V W) (jac jac' : Jac ℝ V W Mat) (x x' : ℕ) (t t' dt dt' : ℝ)
    (h h₁ h₂ h₃ : Heap ℝ V W) (r r' : TryOut ℝ)
    (hr : rosTry4 P C solve sys jac (.user x) t dt h = .ok r h₁) (hfail : r.success = false)
    (hkeep : rosMem h₂ = rosMem h₁)
    (hr' : rosTry4 P C solve sys' jac' (.user x') t' dt' h₂ = .ok r' h₃) : |r'.dt| ≤ |dt'| := by
  obtain ⟨-, -, -, -, -, -, hl, -⟩ := ros_try_step_bounds P hO hm C solve sys jac x t dt h h₁ r hr
  obtain ⟨-, -, -, -, -, -, -, c, c1, c2, -, -, c5⟩ := ros_try_step_bounds P hO hm C solve sys' jac' x' t' dt' h₂ h₃ r' hr'
  have hc : c ≤ 1 := c5 (by rw [hkeep, hl, hfail]; rfl)
  rw [c1, abs_mul, abs_of_pos (by linarith : 0 < c)]
  nlinarith [abs_nonneg dt']

/-- `min_abs( max_dt , dt )` for exact numbers that point in the same direction -/
theorem minAbs_limit {m d : ℝ} (hd : SameDir m d) : SameDir m ((realOps eps).time.minAbs m d) ∧
    |(realOps eps).time.minAbs m d| ≤ |m| ∧ |(realOps eps).time.minAbs m d| ≤ |d| := by
  have hmin : (realOps eps).time.stdMin m d = min m d := realOps_min (eps := eps) m d
  have hmax : (realOps eps).time.stdMax m d = max m d := realOps_max (eps := eps) m d
  rw [TimeArith.minAbs, hmin, hmax]
  rcases hd with ⟨h1, h2⟩ | ⟨h1, h2⟩
  · rw [if_pos (by simpa [realOps, NumOps.time, lit] using h1)]
    have : 0 < min m d := lt_min h1 h2
    exact ⟨.inl ⟨h1, this⟩, by rw [abs_of_pos this, abs_of_pos h1]; exact min_le_left _ _,
      by rw [abs_of_pos this, abs_of_pos h2]; exact min_le_right _ _⟩
  · rw [if_neg (by simpa [realOps, NumOps.time, lit] using h1.le)]
    have : max m d < 0 := max_lt h1 h2
    exact ⟨.inr ⟨h1, this⟩, by rw [abs_of_neg this, abs_of_neg h1]; linarith [le_max_left m d],
      by rw [abs_of_neg this, abs_of_neg h2]; linarith [le_max_right m d]⟩

/-- the limit only acts on successful trials -/
theorem rosDecide_limit (m : ℝ) (hm : m ≠ 0) (mem : RosMem ℝ) (dt err : ℝ) :
    (rosDecide (realOps eps) m mem dt err).2.1 =
      if err ≤ 1 then (realOps eps).time.minAbs m (rosDecide (realOps eps) 0 mem dt err).2.1
      else (rosDecide (realOps eps) 0 mem dt err).2.1 := by
  have z : (!(realOps eps).eq (0 : ℝ) (lit 0)) = false := by simp [realOps, lit]
  have z' : (!(realOps eps).eq m (lit 0)) = true := by simp [realOps, lit, hm]
  by_cases he : err ≤ 1
  · have hle : (realOps eps).le err (lit 1) = true := by simp [realOps, lit, he]
    rw [if_pos he]
    unfold rosDecide
    simp only [hle, if_true, z, z', Bool.false_eq_true, if_false]
  · have hle : (realOps eps).le err (lit 1) = false := by simpa [realOps, lit] using he
    rw [if_neg he]
    unfold rosDecide
    simp only [hle, Bool.false_eq_true, if_false]

/-- **C20** (`rosenbrock4_controller`): with a limit `m` and a step size in the direction of `m`, the proposed step size
again points in this direction and exceeds the limit by at most `eps`; a successful step was itself within the limit; a
try with a step over the limit fails, sets `dt = m` and leaves state, time and memory alone. -/
theorem ros_max_dt_partial (P : RosParams ℝ V) (hO : P.O = realOps eps) (heps : 0 ≤ eps) (C : RosCoef ℝ)
    (solve : ℝ → Mat → V → V) (sys : Sys ℝ V W) (jac : Jac ℝ V W Mat) (x : ℕ) (t dt : ℝ) (h h' : Heap ℝ V W)
    (r : TryOut ℝ) (hdir : SameDir P.maxDt dt) (hr : rosTry4 P C solve sys jac (.user x) t dt h = .ok r h') :
    SameDir P.maxDt r.dt ∧ |r.dt| ≤ |P.maxDt| + eps ∧ (r.success = true → |dt| ≤ |P.maxDt| + eps) ∧
    (|P.maxDt| + eps < |dt| → r = ⟨false, t, P.maxDt⟩ ∧ rosMem h' = rosMem h ∧
      h'.state (.user x) = h.state (.user x)) := by
  have hm0 : P.maxDt ≠ 0 := by rcases hdir with ⟨h1, -⟩ | ⟨h1, -⟩ <;> [exact h1.ne'; exact h1.ne]
  have hlim : (!P.O.eq P.maxDt (lit 0) && P.O.time.lessWithSign P.maxDt dt dt) = true ↔ |P.maxDt| + eps < |dt| := by
    rw [hO]
    have z' : (!(realOps eps).eq P.maxDt (lit 0)) = true := by simp [realOps, lit, hm0]
    rw [z', Bool.true_and, TimeArith.lessWithSign]
    rcases hdir with ⟨h1, h2⟩ | ⟨h1, h2⟩
    · rw [if_pos (by simpa [realOps, NumOps.time, lit] using h2), abs_of_pos h1, abs_of_pos h2]
      simp only [realOps, NumOps.time, decide_eq_true_eq]
      constructor <;> intro h <;> linarith
    · rw [if_neg (by simpa [realOps, NumOps.time, lit] using h2.le), abs_of_neg h1, abs_of_neg h2]
      simp only [realOps, NumOps.time, decide_eq_true_eq]
      constructor <;> intro h <;> linarith
  have mself : SameDir P.maxDt P.maxDt := by
    rcases hdir with ⟨h1, -⟩ | ⟨h1, -⟩
    · exact .inl ⟨h1, h1⟩
    · exact .inr ⟨h1, h1⟩
  rcases ros_try_result P C solve sys jac x t dt h h' r hr with ⟨hc, rfl, a2, a3⟩ |
    ⟨hc, s, w, err, h1, -, h2, h3, h4, h5, h6, h7⟩
  · refine ⟨mself, ?_, by simp, fun _ => ⟨rfl, a2, a3⟩⟩
    change |P.maxDt| ≤ _
    linarith
  · have hle : |dt| ≤ |P.maxDt| + eps := by
      by_contra hcon
      rw [hlim.mpr (not_le.mp hcon)] at hc
      cases hc
    obtain ⟨c, c1, c2, c3, c4, c5⟩ := rosDecide_factor (eps := eps) (rosMem h) dt err
    rw [hO, rosDecide_limit _ hm0, c1] at h5
    have hsd : SameDir P.maxDt (dt * c) := hdir.scale (by linarith)
    refine ⟨?_, ?_, fun _ => hle, fun hgt => absurd hgt (not_lt.mpr hle)⟩
    · rw [h5]; split_ifs
      · exact (minAbs_limit hsd).1
      · exact hsd
    · rw [h5]; split_ifs with he
      · exact ((minAbs_limit hsd).2.1).trans (by linarith)
      · have := c4 (not_le.mp he)
        rw [abs_mul, abs_of_pos (by linarith : 0 < c)]
        nlinarith [abs_nonneg dt]

/-- C20 is violated when `max_dt` and the step size have opposite signs: the try fails and the direction is reversed. -/
theorem ros_max_dt_flips (P : RosParams ℝ V) (hO : P.O = realOps eps) (C : RosCoef ℝ)
    (solve : ℝ → Mat → V → V) (sys : Sys ℝ V W) (jac : Jac ℝ V W Mat) (x : ℕ) (t dt : ℝ) (h h' : Heap ℝ V W)
    (r : TryOut ℝ) (hm : 0 < P.maxDt) (he : eps < P.maxDt) (hdt : dt < 0)
    (hr : rosTry4 P C solve sys jac (.user x) t dt h = .ok r h') :
    r = ⟨false, t, P.maxDt⟩ ∧ dt < 0 ∧ 0 < r.dt := by
  rcases ros_try_result P C solve sys jac x t dt h h' r hr with ⟨hc, rfl, a2, a3⟩ |
    ⟨hc, s, w, err, h1, -, h2, h3, h4, h5, h6, h7⟩
  · exact ⟨rfl, hdt, hm⟩
  · exfalso
    rw [hO] at hc
    have z' : (!(realOps eps).eq P.maxDt (lit 0)) = true := by simp [realOps, lit, hm.ne']
    rw [z', Bool.true_and, TimeArith.lessWithSign, if_neg (by simpa [realOps, NumOps.time, lit] using hdt.le)] at hc
    simp only [realOps, NumOps.time, decide_eq_false_iff_not, not_lt] at hc
    linarith

end Real

/-! ## The defining equations -/

section Field
variable [Field K] [AddCommGroup V] [Module K V]

/-- **C22**: if the linear solver is correct for the matrix of the step, the step satisfies the equations of the
Rosenbrock method. -/
theorem ros_step_equations {f : V → K → V} {ft : V → K → V} {J : V → K → V →ₗ[K] V} (C : RosCoef K)
    (solve : K → (V →ₗ[K] V) → V → V) (sys : Sys K V W) (jac : Jac K V W (V →ₗ[K] V))
    (hsys : ∀ x t w v w', sys x t w = .ok v w' → v = f x t)
    (hjac : ∀ x t w r w', jac x t w = .ok r w' → r = (J x t, ft x t))
    (x : V) (t dt : K) (w w' : W) (r : RosStages V)
    (hsol : Solves solve (1 / (C.gamma * dt)) (J x t))
    (hr : rosStep C solve sys jac x t dt w = .ok r w') :
    IsRosenbrock C f (J x t) (ft x t) x t dt r (r.x K) := by
  have bindf : ∀ {β : Type} {y : V} {s : K} {w w' : W} {q : V → M W β} {b : β},
      (sys y s >>= q) w = .ok b w' → ∃ w₁, q (f y s) w₁ = .ok b w' := by
    intro β y s w w' q b h
    rw [M.bind_apply] at h
    cases hs : sys y s w with
    | ok v w₁ => rw [hs] at h; rw [hsys _ _ _ _ _ hs] at h; exact ⟨w₁, h⟩
    | err => rw [hs] at h; cases h
    | ub => rw [hs] at h; cases h
    | div => rw [hs] at h; cases h
  have bindj : ∀ {β : Type} {y : V} {s : K} {w w' : W} {q : (V →ₗ[K] V) × V → M W β} {b : β},
      (jac y s >>= q) w = .ok b w' → ∃ w₁, q (J y s, ft y s) w₁ = .ok b w' := by
    intro β y s w w' q b h
    rw [M.bind_apply] at h
    cases hs : jac y s w with
    | ok v w₁ => rw [hs] at h; rw [hjac _ _ _ _ _ hs] at h; exact ⟨w₁, h⟩
    | err => rw [hs] at h; cases h
    | ub => rw [hs] at h; cases h
    | div => rw [hs] at h; cases h
  unfold rosStep at hr
  obtain ⟨_, hr⟩ := bindf hr
  obtain ⟨_, hr⟩ := bindj hr
  obtain ⟨_, hr⟩ := bindf hr
  obtain ⟨_, hr⟩ := bindf hr
  obtain ⟨_, hr⟩ := bindf hr
  obtain ⟨_, hr⟩ := bindf hr
  obtain ⟨_, hr⟩ := bindf hr
  rw [M.pure_apply] at hr
  have hc : (lit 1 : K) / C.gamma / dt = 1 / (C.gamma * dt) := by
    clear * -
    rw [show (lit 1 : K) = 1 by simp [lit], div_div]
  rw [hc] at hr
  have L1 : (lit 1 : K) = 1 := by simp [lit]
  injection hr with hr _
  obtain ⟨g1, g2, g3, g4, g5, y, g6⟩ := r
  clear hsys hjac bindf bindj
  dsimp only at hr
  injection hr with e1 e2 e3 e4 e5 ey e6
  rw [e1] at e2 e3 e4 e5 ey e6
  rw [e2] at e3 e4 e5 ey e6
  rw [e3] at e4 e5 ey e6
  rw [e4] at e5 ey e6
  rw [e5] at ey e6
  rw [ey] at e6
  simp only [lin, StateOps.exact, List.map_cons, List.map_nil, List.sum_cons, List.sum_nil, L1, one_smul, add_zero]
    at e1 e2 e3 e4 e5 ey e6
  constructor <;> simp only [RosStages.x]
  · nth_rw 1 2 [← e1]; rw [hsol]
  · nth_rw 1 2 [← e2]; rw [hsol, add_assoc]
  · nth_rw 1 2 [← e3]; rw [hsol]; simp only [add_assoc]
  · nth_rw 1 2 [← e4]; rw [hsol]; simp only [add_assoc]
  · nth_rw 1 2 [← e5]; rw [hsol]; simp only [add_assoc]
  · rw [← ey]; simp only [add_assoc]
  · nth_rw 1 2 [← e6]; rw [hsol]; simp only [add_assoc]
  · simp [lin, StateOps.exact, L1]

end Field
end Verif
