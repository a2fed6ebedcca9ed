import Verif.Props.CallsDense
import Verif.Spec.RosDenseRun

/-!
# C84 for `rosenbrock4_controller` and `rosenbrock4_dense_output`

Evaluations of the right-hand side and of the Jacobian are counted separately (`RosCounting`).
-/

set_option linter.unusedSectionVars false

namespace Verif
variable {K V Mat : Type} [Field K] [LinearOrder K] [IsStrictOrderedRing K] [StateOps K V] {sys : Sys K V ℕ} {jac : Jac K V ℕ Mat}

/-- a step of `rosenbrock4` costs `c`: what both kinds of counting need -/
def RosCosts (C : RosCoef K) (solve : K → Mat → V → V) (sys : Sys K V ℕ) (jac : Jac K V ℕ Mat) (c : ℕ) : Prop :=
  ∀ x t xout dt xerr, TakesCalls c (rosDoStep6 C solve sys jac x t xout dt xerr)

/-- is the step longer than the maximal step size? -/
def rosTooLong (P : RosParams K V) (dt : K) : Bool := !P.O.eq P.maxDt (lit 0) && P.O.time.lessWithSign P.maxDt dt dt

/-- one trial -/
theorem rosTry5_calls (P : RosParams K V) (C : RosCoef K) (solve : K → Mat → V → V) {c : ℕ} (hc : RosCosts C solve sys jac c) (x : Loc) (t : K) (xout : Loc) (dt : K)
    (h : Heap K V ℕ) :
    ∃ r h', rosTry5 P C solve sys jac x t xout dt h = .ok r h' ∧ h'.world = h.world + (if rosTooLong P dt then 0 else c) ∧
      (rosTooLong P dt = true → r.success = false) := by
  unfold rosTry5
  cases hl : rosTooLong P dt with
  | true =>
    have hl' : (!P.O.eq P.maxDt (lit 0) && P.O.time.lessWithSign P.maxDt dt dt) = true := hl
    rw [hl']
    exact ⟨_, _, rfl, rfl, fun _ => rfl⟩
  | false =>
    have hl' : (!P.O.eq P.maxDt (lit 0) && P.O.time.lessWithSign P.maxDt dt dt) = false := hl
    obtain ⟨_, h1, e1, w1⟩ := hc x t xout dt mXerr h
    simp only [hl', Bool.false_eq_true, if_false]
    rw [M.bind_ok e1]
    exact ⟨_, _, rfl, w1, fun h => nomatch h⟩

theorem ros_costs (C : RosCoef K) (solve : K → Mat → V → V) (hc : Counts sys) (hj : ∀ x t n, ∃ y, jac x t n = .ok y n) : RosCosts C solve sys jac 6 :=
  fun x t xout dt xerr => (do_step_rosenbrock_calls C solve hc hj x t xout dt xerr).1

/-- **C84, `try_step` of `rosenbrock4_controller`**: six evaluations, successful or not; none if the step is refused because it exceeds the maximal step size. -/
theorem try_step_rosenbrock_calls (P : RosParams K V) (C : RosCoef K) (solve : K → Mat → V → V) (hc : Counts sys) (hj : ∀ x t n, ∃ y, jac x t n = .ok y n)
    (x : Loc) (t : K) (xout : Loc) (dt : K) :
    TakesCalls (if rosTooLong P dt then 0 else 6) (rosTry4 P C solve sys jac x t dt) ∧
    TakesCalls (if rosTooLong P dt then 0 else 6) (rosTry5 P C solve sys jac x t xout dt) := by
  refine ⟨fun h => ?_, fun h => ?_⟩
  · obtain ⟨r, h', e, w, -⟩ := rosTry5_calls P C solve (ros_costs C solve hc hj) x t mXnew dt h
    unfold rosTry4
    rw [M.bind_ok e]
    split
    · exact ⟨_, _, rfl, w⟩
    · exact ⟨_, _, rfl, w⟩
  · obtain ⟨r, h', e, w, -⟩ := rosTry5_calls P C solve (ros_costs C solve hc hj) x t xout dt h
    exact ⟨r, h', e, w⟩

/-- the integrate functions with a `rosenbrock4_controller` whose steps cost `c` -/
theorem integrate_ros_calls (A : TimeArith K) (P : RosParams K V) (C : RosCoef K) (solve : K → Mat → V → V) {c : ℕ} (hc : RosCosts C solve sys jac c)
    {obs : Observer (ℕ × Log V K) V K} (ho : obs.Quiet fun w => w.1) (q : Heap K V ℕ) (x : V) (t0 t1 dt : K) (times : List K)
    (w w' : ℕ × Log V K) (x' : V) (n : ℕ) (r : AdaptResult V K) :
    let st := controlledObject (rosTry4 P C solve sys jac)
    (integrateAdaptiveControlled A st obs q x t0 t1 dt w = .ok r w' → w.1 + r.count * c ≤ w'.1 ∧ w'.1 ≤ w.1 + r.count * (500 * c)) ∧
    (integrateConstControlled A st obs q x t0 t1 dt w = .ok (x', n) w' → w.1 + n * c ≤ w'.1 ∧ w'.1 ≤ w.1 + n * (500 * c)) ∧
    (integrateTimesControlled A st obs q x times dt w = .ok (x', n) w' → w.1 + n * c ≤ w'.1 ∧ w'.1 ≤ w.1 + (n + 1) * (501 * c)) := by
  intro st
  refine integrate_controlled_calls A st (calls := fun w : ℕ × Log V K => w.1) (lo := c) (hi := c) ?_ ho q x t0 t1 dt times w w' x' n r
  intro q x t dt w r w' e
  obtain ⟨r1, h1, e1, w1, hs⟩ := rosTry5_calls P C solve hc (.user 0) t mXnew dt ((q.set (.user 0) x).withWorld w.1)
  have w1 : h1.world = w.1 + _ := w1
  simp only [st, controlledObject, rosTry4] at e
  rw [M.bind_ok e1] at e
  cases hr : r1.success with
  | true =>
    have hl : rosTooLong P dt = false := by
      cases hl : rosTooLong P dt with
      | false => rfl
      | true => rw [hs hl] at hr; cases hr
    rw [hl] at w1
    simp only [hr, if_true] at e
    cases e
    dsimp only [Heap.set] at *
    exact ⟨by simp at w1; omega, fun _ => by simp at w1; omega, by simp at w1; omega⟩
  | false =>
    simp only [hr, Bool.false_eq_true, if_false] at e
    cases e
    have : (if rosTooLong P dt = true then 0 else c) ≤ c := by split <;> omega
    refine ⟨?_, fun h => ?_, ?_⟩
    · show h1.world ≤ w.1 + c
      omega
    · change r1.success = true at h
      rw [hr] at h
      cases h
    · show w.1 ≤ h1.world
      omega

/-! ## Dense output -/

/-- the body of the loop -/
theorem rosDenseBody_calls (P : RosParams K V) (C : RosCoef K) (solve : K → Mat → V → V) {c : ℕ} (hc : RosCosts C solve sys jac c) (s : Bool × ℕ) (h : Heap K V ℕ) :
    ∃ b h', (h'.world = h.world + c ∨ h'.world = h.world ∧ b = false) ∧
      rosDenseBody P C solve sys jac s h = if 500 ≤ s.2 then .err .stepAdjustment h' else .ok (b, s.2 + 1) h' := by
  obtain ⟨r, h1, e1, w1, hs⟩ := rosTry5_calls P C solve hc (getCurrent (h.flag mCurX1)) (h.num mT) (getOld (h.flag mCurX1)) (h.num mDt) h
  refine ⟨r.success, (h1.putNum mT r.t).putNum mDt r.dt, ?_, ?_⟩
  · show h1.world = _ ∨ h1.world = _ ∧ _
    cases hl : rosTooLong P (h.num mDt) with
    | true => rw [hl] at w1; exact .inr ⟨w1, hs hl⟩
    | false => rw [hl] at w1; exact .inl w1
  unfold rosDenseBody
  rw [M.bind_ok (m := getFlag mCurX1) (w' := h) (a := h.flag mCurX1) rfl, M.bind_ok (m := getNum mT) (w' := h) (a := h.num mT) rfl,
    M.bind_ok (m := getNum mDt) (w' := h) (a := h.num mDt) rfl, M.bind_ok e1,
    M.bind_ok (m := setNum mT r.t) (w' := h1.putNum mT r.t) (a := ()) rfl,
    M.bind_ok (m := setNum mDt r.dt) (w' := (h1.putNum mT r.t).putNum mDt r.dt) (a := ()) rfl]
  unfold failedStepChecker defaultMaxSteps
  by_cases hm : 500 ≤ s.2
  · rw [if_pos hm, if_pos hm]
    rfl
  · rw [if_neg hm, if_neg hm]
    rfl

/-- The outcome of a loop that may make `n` more trials of costs `c`. -/
def RosLoopCalls (c n : ℕ) (h : Heap K V ℕ) (res : Res (Heap K V ℕ) (Bool × ℕ)) : Prop :=
  (∃ s h' j, res = .ok s h' ∧ 1 ≤ j ∧ j ≤ n ∧ h'.world = h.world + c * j) ∨
    ∃ h' j, res = .err .stepAdjustment h' ∧ j ≤ n + 1 ∧ h'.world = h.world + c * j

theorem RosLoopCalls.step {c n a : ℕ} {h h1 : Heap K V ℕ} {res : Res (Heap K V ℕ) (Bool × ℕ)} (hr : RosLoopCalls c n h1 res)
    (hw : h1.world = h.world + c * a) (ha : a ≤ 1) : RosLoopCalls c (n + 1) h res := by
  rcases hr with ⟨s, h', j, rfl, j1, j2, w⟩ | ⟨h', j, rfl, j2, w⟩
  · exact .inl ⟨s, h', j + a, rfl, by omega, by omega, by rw [w, hw]; ring⟩
  · exact .inr ⟨h', j + a, rfl, by omega, by rw [w, hw]; ring⟩

theorem rosDenseWhile_calls (P : RosParams K V) (C : RosCoef K) (solve : K → Mat → V → V) {c : ℕ} (hc : RosCosts C solve sys jac c) :
    ∀ (n k : ℕ) (h : Heap K V ℕ), k + n = 500 →
      RosLoopCalls c n h (whileM (fun s : Bool × ℕ => !s.1) (rosDenseBody P C solve sys jac) (false, k) h) := by
  intro n
  induction n with
  | zero =>
    intro k h hcn
    obtain ⟨b, h', w, e⟩ := rosDenseBody_calls P C solve hc (false, k) h
    rw [if_pos (by show 500 ≤ k; omega)] at e
    rw [whileM_step_err rfl e]
    rcases w with w | ⟨w, -⟩
    · exact .inr ⟨h', 1, rfl, by omega, by rw [w]; ring⟩
    · exact .inr ⟨h', 0, rfl, by omega, by rw [w]; ring⟩
  | succ n ih =>
    intro k h hcn
    obtain ⟨b, h', w, e⟩ := rosDenseBody_calls P C solve hc (false, k) h
    rw [if_neg (by show ¬ 500 ≤ k; omega)] at e
    rw [whileM_step_ok rfl e]
    cases b with
    | true =>
      rw [whileM_false rfl]
      rcases w with w | ⟨-, w⟩
      · exact .inl ⟨_, h', 1, rfl, le_rfl, by omega, by rw [w]; ring⟩
      · cases w
    | false =>
      have := ih (k + 1) h' (by omega)
      rcases w with w | ⟨w, -⟩
      · exact this.step (a := 1) (by rw [w]; ring) le_rfl
      · exact this.step (a := 0) (by rw [w]; ring) (by omega)

theorem rosDenseDoStep_calls (P : RosParams K V) (C : RosCoef K) (solve : K → Mat → V → V) {c : ℕ} (hc : RosCosts C solve sys jac c) (h : Heap K V ℕ) :
    (∃ r h' j, rosDenseDoStep P C solve sys jac h = .ok r h' ∧ 1 ≤ j ∧ j ≤ 500 ∧ h'.world = h.world + c * j) ∨
      ∃ h' j, rosDenseDoStep P C solve sys jac h = .err .stepAdjustment h' ∧ j ≤ 501 ∧ h'.world = h.world + c * j := by
  have loop := rosDenseWhile_calls P C solve hc 500 0 (h.putNum mTOld (h.num mT)) rfl
  rw [whileM_true rfl] at loop
  unfold rosDenseDoStep
  rw [M.bind_ok (m := getNum mT) (w' := h) (a := h.num mT) rfl,
    M.bind_ok (m := setNum mTOld (h.num mT)) (w' := h.putNum mTOld (h.num mT)) (a := ()) rfl]
  rcases loop with ⟨s, h', j, e, j1, j2, w⟩ | ⟨h', j, e, j2, w⟩
  · obtain ⟨s1, h1, e1, e2⟩ := bind_ok_inv e
    rw [M.bind_ok e1, M.bind_ok e2]
    exact .inl ⟨_, _, j, rfl, j1, j2, w⟩
  · refine .inr ⟨h', j, ?_, j2, w⟩
    rw [M.bind_apply] at e
    rw [M.bind_apply]
    cases e1 : rosDenseBody P C solve sys jac (false, 0) (h.putNum mTOld (h.num mT)) with
    | ok s1 h1 => rw [e1] at e; dsimp only at e ⊢; rw [M.bind_apply, e]
    | err _ _ => rw [e1] at e; cases e; rfl
    | ub => rw [e1] at e; cases e
    | div => rw [e1] at e; cases e

theorem rosDenseObject_costs (P : RosParams K V) (C : RosCoef K) (solve : K → Mat → V → V) {c : ℕ} (hc : RosCosts C solve sys jac c) :
    (rosDenseObject P C solve sys jac).Costs (fun w : ℕ × Log V K => w.1) c (500 * c) where
  init q x t dt w q' w' e := by
    cases e
    rfl
  interp q t w x w' e := by
    cases e
    rfl
  step q w q' w' e := by
    rcases rosDenseDoStep_calls P C solve hc (q.withWorld w.1) with ⟨r, h', j, e1, j1, j2, w1⟩ | ⟨h', j, e1, -⟩
    · simp only [rosDenseObject, e1] at e
      cases e
      have w1 : q'.world = w.1 + _ := w1
      dsimp only
      rw [w1]
      constructor <;> nlinarith
    · simp only [rosDenseObject, e1] at e
      cases e

/-- What is counted: the evaluations of the right-hand side, six in each trial, or those of the Jacobian, one in each trial. -/
def RosCounting (sys : Sys K V ℕ) (jac : Jac K V ℕ Mat) (c : ℕ) : Prop :=
  (Counts sys ∧ (∀ x t n, ∃ y, jac x t n = .ok y n) ∧ c = 6) ∨ ((∀ x t n, ∃ y, sys x t n = .ok y n) ∧ (∀ x t n, ∃ y, jac x t n = .ok y (n + 1)) ∧ c = 1)

theorem RosCounting.costs {c : ℕ} (h : RosCounting sys jac c) (C : RosCoef K) (solve : K → Mat → V → V) : RosCosts C solve sys jac c := by
  rcases h with ⟨h1, h2, rfl⟩ | ⟨h1, h2, rfl⟩
  · exact ros_costs C solve h1 h2
  · exact fun x t xout dt xerr => rosenbrock4_jacobian_calls C solve h1 h2 x t xout dt xerr

/-- **C84, `do_step` of `rosenbrock4_dense_output`**: for each of at least one and at most 500 trials, six evaluations and one Jacobian; if all trials fail, the
exception comes after at most 501.  Interpolation and `initialize` cost nothing. -/
theorem do_step_dense_rosenbrock_calls (P : RosParams K V) (C : RosCoef K) (solve : K → Mat → V → V) {c : ℕ} (hc : RosCounting sys jac c) (x : Loc) (t dt : K)
    (h : Heap K V ℕ) :
    ((∃ r h' j, rosDenseDoStep P C solve sys jac h = .ok r h' ∧ 1 ≤ j ∧ j ≤ 500 ∧ h'.world = h.world + c * j) ∨
      ∃ h' j, rosDenseDoStep P C solve sys jac h = .err .stepAdjustment h' ∧ j ≤ 501 ∧ h'.world = h.world + c * j) ∧
    TakesCalls 0 (rosDenseInit x t dt : StepM K V ℕ Unit) ∧ TakesCalls 0 (rosDenseCalcState t x : StepM K V ℕ Unit) :=
  ⟨rosDenseDoStep_calls P C solve (hc.costs C solve) h, fun _ => ⟨_, _, rfl, rfl⟩, fun _ => ⟨_, _, rfl, rfl⟩⟩

/-- **C84, integration with `rosenbrock4_controller` and `rosenbrock4_dense_output`**: for each reported step at least one trial, and at most 500, with six
evaluations and one Jacobian for each.  (`integrate_times` with the controller makes trials in a last step that is not reported.) -/
theorem integrate_rosenbrock_calls (A : TimeArith K) (P : RosParams K V) (C : RosCoef K) (solve : K → Mat → V → V) {c : ℕ} (hc : RosCounting sys jac c)
    {obs : Observer (ℕ × Log V K) V K} (ho : obs.Quiet fun w => w.1) (q : Heap K V ℕ) (x : V) (t0 t1 dt : K) (times : List K)
    (w w' : ℕ × Log V K) (x' : V) (n : ℕ) (r : AdaptResult V K) :
    let st := controlledObject (rosTry4 P C solve sys jac)
    let dense := rosDenseObject P C solve sys jac
    ((integrateAdaptiveControlled A st obs q x t0 t1 dt w = .ok r w' → w.1 + r.count * c ≤ w'.1 ∧ w'.1 ≤ w.1 + r.count * (500 * c)) ∧
    (integrateConstControlled A st obs q x t0 t1 dt w = .ok (x', n) w' → w.1 + n * c ≤ w'.1 ∧ w'.1 ≤ w.1 + n * (500 * c)) ∧
    (integrateTimesControlled A st obs q x times dt w = .ok (x', n) w' → w.1 + n * c ≤ w'.1 ∧ w'.1 ≤ w.1 + (n + 1) * (501 * c))) ∧
    (integrateAdaptiveDense A dense obs q x t0 t1 dt w = .ok (x', n) w' → w.1 + n * c ≤ w'.1 ∧ w'.1 ≤ w.1 + n * (500 * c)) ∧
    (integrateConstDense A dense obs q x t0 t1 dt w = .ok (x', n) w' → w.1 + n * c ≤ w'.1 ∧ w'.1 ≤ w.1 + n * (500 * c)) ∧
    (integrateTimesDense A dense obs q x times dt w = .ok (x', n) w' → w.1 + n * c ≤ w'.1 ∧ w'.1 ≤ w.1 + n * (500 * c)) :=
  ⟨integrate_ros_calls A P C solve (hc.costs C solve) ho q x t0 t1 dt times w w' x' n r,
    integrate_dense_calls A _ (rosDenseObject_costs P C solve (hc.costs C solve)) ho q x t0 t1 dt times w w' x' n⟩

/-- A concrete case: `x' = -x` with its Jacobian, over the rational numbers, with an error that is always zero: the first trial is successful, after six
evaluations, or one of the Jacobian. -/
example :
    let O : NumOps ℚ := ⟨fun a b => decide (a < b), fun a b => decide (a ≤ b), fun a b => decide (a = b), fun a => |a|, fun _ _ => 1, 0⟩
    let P : RosParams ℚ ℚ := ⟨O, 0, fun _ _ _ => 0⟩
    let C : RosCoef ℚ := defaultRosenbrock
    let solve : ℚ → ℚ → ℚ → ℚ := fun g J b => b / (g - J)
    let sys : Sys ℚ ℚ ℕ := fun x _ n => .ok (-x) (n + 1)
    let sys' : Sys ℚ ℚ ℕ := fun x _ n => .ok (-x) n
    let jac : Jac ℚ ℚ ℕ ℚ := fun _ _ n => .ok (-1, 0) n
    let jac' : Jac ℚ ℚ ℕ ℚ := fun _ _ n => .ok (-1, 0) (n + 1)
    let h : Heap ℚ ℚ ℕ := ⟨fun _ => 1, fun _ => 0, fun _ => true, fun _ => 0, 0⟩
    RosCounting sys jac 6 ∧ RosCounting sys' jac' 1 ∧
    (match rosTry4 P C solve sys jac (.user 0) 0 (1 / 10) h with
      | .ok r h' => decide (r.success = true ∧ h'.world = 6)
      | _ => false) = true ∧
    (match rosTry4 P C solve sys' jac' (.user 0) 0 (1 / 10) h with
      | .ok r h' => decide (r.success = true ∧ h'.world = 1)
      | _ => false) = true := by
  intro O P C solve sys sys' jac jac' h
  refine ⟨.inl ⟨fun x _ _ => ⟨-x, rfl⟩, fun _ _ _ => ⟨_, rfl⟩, rfl⟩, .inr ⟨fun x _ _ => ⟨-x, rfl⟩, fun _ _ _ => ⟨_, rfl⟩, rfl⟩, ?_, ?_⟩
  · decide +kernel
  · decide +kernel

end Verif
