import Verif.Props.IntervalRos
import Verif.Lemmas.IntervalObjects
import Verif.Spec.RosDenseRun

/-!
# C83 for `rosenbrock4_dense_output`: where system function and Jacobian are evaluated
-/

set_option linter.unusedSectionVars false

namespace Verif
variable {V W Mat : Type} [StateOps ℝ V]

/-- what a trial decides, in terms of the error and of the memory of the controller -/
theorem rosTry5_result {P : RosParams ℝ V} {C : RosCoef ℝ} {solve : ℝ → Mat → V → V} {sys : Sys ℝ V W} {jac : Jac ℝ V W Mat} {x xout : Loc} {t dt : ℝ}
    {h h' : Heap ℝ V W} {r : TryOut ℝ} (e : rosTry5 P C solve sys jac x t xout dt h = .ok r h') :
    let long := !P.O.eq P.maxDt (lit 0) && P.O.time.lessWithSign P.maxDt dt dt
    (long = true ∧ r = ⟨false, t, P.maxDt⟩) ∨
      long = false ∧ ∃ m err, r = ⟨(rosDecide P.O P.maxDt m dt err).1, if (rosDecide P.O P.maxDt m dt err).1 then t + dt else t,
        (rosDecide P.O P.maxDt m dt err).2.1⟩ := by
  intro long
  unfold rosTry5 at e
  cases hl : long with
  | true =>
    have hl' : (!P.O.eq P.maxDt (lit 0) && P.O.time.lessWithSign P.maxDt dt dt) = true := hl
    rw [hl'] at e
    cases e
    exact .inl ⟨rfl, rfl⟩
  | false =>
    have hl' : (!P.O.eq P.maxDt (lit 0) && P.O.time.lessWithSign P.maxDt dt dt) = false := hl
    simp only [hl', Bool.false_eq_true, if_false] at e
    obtain ⟨_, h1, e1, e⟩ := bind_ok_inv e
    cases e
    exact .inr ⟨rfl, _, _, rfl⟩

/-- the time and the step size after a trial: `try_step` with another `x` and another error would decide the same -/
theorem rosTry5_forward {eps : ℝ} (P : RosParams ℝ V) (hO : P.O = realOps eps) (heps : 0 ≤ eps) (C : RosCoef ℝ) (solve : ℝ → Mat → V → V)
    (sys : Sys ℝ V W) (jac : Jac ℝ V W Mat) (d : ℝ) (hm : P.maxDt = 0 ∨ SameDir d P.maxDt) (x xout : Loc) (t dt : ℝ) (h h' : Heap ℝ V W) (r : TryOut ℝ)
    (hd : SameDir d dt) (hr : rosTry5 P C solve sys jac x t xout dt h = .ok r h') :
    SameDir d r.dt ∧ (r.success = true → r.t = t + dt) ∧ (r.success = false → r.t = t ∧ |r.dt| ≤ |dt|) := by
  rcases rosTry5_result hr with ⟨hl, rfl⟩ | ⟨hl, m, err, rfl⟩
  · refine rosTry4_forward P hO heps C (Mat := Unit) (fun _ _ v => v) (fun x _ => pure x) (fun x _ => pure ((), x)) d hm 0 t dt h h _ hd ?_
    unfold rosTry4 rosTry5
    rw [hl]
    rfl
  · let P' : RosParams ℝ V := { P with error := fun _ _ _ => err }
    let h2 : Heap ℝ V W := ⟨h.state, fun l => if l = rErrOld then m.errOld else if l = rDtOld then m.dtOld else h.num l,
      fun l => if l = rFirst then m.first else if l = rLastRej then m.lastRejected else h.flag l, h.nat, h.world⟩
    have hmem : rosMem h2 = m := by
      have n1 : rDtOld ≠ rErrOld := by decide
      have n2 : rLastRej ≠ rFirst := by decide
      simp only [rosMem, h2, if_neg n1, if_neg n2, if_true]
    have key : ∃ r1 h1, rosTry4 P' C (Mat := Unit) (fun _ _ v => v) (fun x _ => pure x) (fun x _ => pure ((), x)) (.user 0) t dt h2 = .ok r1 h1 := by
      have hl' : (!P'.O.eq P'.maxDt (lit 0) && P'.O.time.lessWithSign P'.maxDt dt dt) = false := hl
      have t5 : ∃ r1 h1, rosTry5 P' C (Mat := Unit) (fun _ _ v => v) (fun x _ => pure x) (fun x _ => pure ((), x)) (.user 0) t mXnew dt h2 = .ok r1 h1 := by
        unfold rosTry5
        simp only [hl', Bool.false_eq_true, if_false]
        exact ⟨_, _, rfl⟩
      obtain ⟨r1, h1, e1⟩ := t5
      unfold rosTry4
      rw [M.bind_ok e1]
      split
      · exact ⟨_, _, rfl⟩
      · exact ⟨_, _, rfl⟩
    obtain ⟨r1, h1, e1⟩ := key
    have f := rosTry4_forward P' hO heps C _ _ _ d hm 0 t dt _ _ _ hd e1
    rcases ros_try_result P' C _ _ _ 0 t dt _ _ _ e1 with ⟨hl', -⟩ | ⟨-, s, w, err', -, -, c1, c2, c3, c4, -⟩
    · have hl' : (!P.O.eq P.maxDt (lit 0) && P.O.time.lessWithSign P.maxDt dt dt) = true := hl'
      rw [hl] at hl'
      cases hl'
    · have c1 : err' = err := c1
      rw [hmem, c1] at c2 c4
      rw [c3, c4, c2] at f
      exact f

/-- one trial of `do_step` -/
theorem rosDenseBody_ok {eps : ℝ} {P : RosParams ℝ V} (hO : P.O = realOps eps) (heps : 0 ≤ eps) {C : RosCoef ℝ} {solve : ℝ → Mat → V → V}
    {sys : Sys ℝ V W} {jac : Jac ℝ V W Mat} {d : ℝ} (hm : P.maxDt = 0 ∨ SameDir d P.maxDt) {s s' : Bool × ℕ} {h h' : Heap ℝ V W}
    (hd : SameDir d (h.num mDt)) (e : rosDenseBody P C solve sys jac s h = .ok s' h') :
    SameDir d (h'.num mDt) ∧ (s'.1 = true → h'.num mT = h.num mT + h.num mDt) ∧
      (s'.1 = false → h'.num mT = h.num mT ∧ |h'.num mDt| ≤ |h.num mDt|) := by
  unfold rosDenseBody at e
  obtain ⟨b, h₁, e1, e⟩ := bind_ok_inv e
  cases e1
  obtain ⟨t, h₁, e1, e⟩ := bind_ok_inv e
  cases e1
  obtain ⟨dt, h₁, e1, e⟩ := bind_ok_inv e
  cases e1
  obtain ⟨r, h₁, e1, e⟩ := bind_ok_inv e
  obtain ⟨_, h₂, e2, e⟩ := bind_ok_inv e
  cases e2
  obtain ⟨_, h₂, e2, e⟩ := bind_ok_inv e
  cases e2
  obtain ⟨c, h₂, e2, e⟩ := bind_ok_inv e
  have := failedStepChecker_ok e2
  subst this
  cases e
  have hne : mT ≠ mDt := by simp [mT, mDt]
  have key := rosTry5_forward P hO heps C solve sys jac d hm _ _ _ _ _ _ _ hd e1
  simpa [Heap.putNum_num, hne] using key

theorem rosDenseBody_agree (P : RosParams ℝ V) (solve : ℝ → Mat → V → V) {I : Set ℝ} {sys sys' : Sys ℝ V W} {jac jac' : Jac ℝ V W Mat}
    (h : ∀ τ ∈ I, ∀ x, sys x τ = sys' x τ) (hj : ∀ τ ∈ I, ∀ x, jac x τ = jac' x τ) (s : Bool × ℕ) (q : Heap ℝ V W)
    (hs : duringStep (q.num mT) (q.num mDt) ⊆ I) : rosDenseBody P defaultRosenbrock solve sys jac s q = rosDenseBody P defaultRosenbrock solve sys' jac' s q := by
  simp only [rosDenseBody, M.bind_apply, getFlag, getNum]
  have : rosTry5 P defaultRosenbrock solve sys jac (getCurrent (q.flag mCurX1)) (q.num mT) (getOld (q.flag mCurX1)) (q.num mDt) =
      rosTry5 P defaultRosenbrock solve sys' jac' (getCurrent (q.flag mCurX1)) (q.num mT) (getOld (q.flag mCurX1)) (q.num mDt) := by
    simp only [rosTry5, rosDoStep6_agree solve (fun τ hτ x => h τ (hs hτ) x) (fun x => hj _ (hs (start_mem _ _)) x)]
  rw [this]

/-- the loop in `do_step` -/
theorem rosDenseLoop_inv {eps : ℝ} {P : RosParams ℝ V} (hO : P.O = realOps eps) (heps : 0 ≤ eps) {C : RosCoef ℝ} {solve : ℝ → Mat → V → V}
    {sys : Sys ℝ V W} {jac : Jac ℝ V W Mat} {d : ℝ} (hm : P.maxDt = 0 ∨ SameDir d P.maxDt) {q : Heap ℝ V W}
    (hd : SameDir d (q.num mDt)) {s s' : Bool × ℕ} {h h' : Heap ℝ V W} (hi : DenseInv d (q.num mT) (q.num mDt) s h) (hs : s.1 = false)
    (e : rosDenseBody P C solve sys jac s h = .ok s' h') : DenseInv d (q.num mT) (q.num mDt) s' h' := by
  obtain ⟨h1, h2, h3⟩ := rosDenseBody_ok hO heps hm hi.1 e
  obtain ⟨e1, e2⟩ := hi.2.2 hs
  refine ⟨h1, fun hh => ?_, fun hh => ⟨(h3 hh).1.trans e1, (h3 hh).2.trans e2⟩⟩
  rw [h2 hh, e1]
  exact duringStep_shorter hd hi.1 e2 (end_mem _ _)

theorem rosDenseDoStep_agree {eps : ℝ} (P : RosParams ℝ V) (hO : P.O = realOps eps) (heps : 0 ≤ eps) (solve : ℝ → Mat → V → V) {d : ℝ}
    (hm : P.maxDt = 0 ∨ SameDir d P.maxDt) {I : Set ℝ} {sys sys' : Sys ℝ V W} {jac jac' : Jac ℝ V W Mat}
    (h : ∀ τ ∈ I, ∀ x, sys x τ = sys' x τ) (hj : ∀ τ ∈ I, ∀ x, jac x τ = jac' x τ)
    (q : Heap ℝ V W) (hs : duringStep (q.num mT) (q.num mDt) ⊆ I) (hd : SameDir d (q.num mDt)) :
    rosDenseDoStep P defaultRosenbrock solve sys jac q = rosDenseDoStep P defaultRosenbrock solve sys' jac' q := by
  unfold rosDenseDoStep
  refine bind_congr_ok rfl fun t h₂ e2 => ?_
  cases e2
  refine bind_congr_ok rfl fun _ h₂ e2 => ?_
  cases e2
  have hT : (q.putNum mTOld (q.num mT)).num mT = q.num mT := by rw [Heap.putNum_num, if_neg (by simp [mT, mTOld])]
  have hD : (q.putNum mTOld (q.num mT)).num mDt = q.num mDt := by rw [Heap.putNum_num, if_neg (by simp [mDt, mTOld])]
  rw [← hT, ← hD] at hs
  rw [← hD] at hd
  generalize q.putNum mTOld (q.num mT) = q1 at *
  refine bind_congr_ok (rosDenseBody_agree P solve h hj _ q1 hs) fun s h₁ e1 => bind_congr_ok ?_ fun _ _ _ => rfl
  refine whileM_congr₂ (DenseInv d (q1.num mT) (q1.num mDt)) ?_ ?_ (rosDenseLoop_inv hO heps hm hd (DenseInv.start hd) rfl e1)
  · intro s h' hi hc
    obtain ⟨e1, e2⟩ := hi.2.2 (by simpa using hc)
    exact rosDenseBody_agree P solve h hj _ h' (by rw [e1]; exact (duringStep_shorter hd hi.1 e2).trans hs)
  · intro s h' s' h'' hi hc e
    exact rosDenseLoop_inv hO heps hm hd hi (by simpa using hc) e

theorem rosDenseDoStep_ok {eps : ℝ} {P : RosParams ℝ V} (hO : P.O = realOps eps) (heps : 0 ≤ eps) {C : RosCoef ℝ} {solve : ℝ → Mat → V → V}
    {sys : Sys ℝ V W} {jac : Jac ℝ V W Mat} {d : ℝ} (hm : P.maxDt = 0 ∨ SameDir d P.maxDt) {q q' : Heap ℝ V W} {r : ℝ × ℝ}
    (hd : SameDir d (q.num mDt)) (e : rosDenseDoStep P C solve sys jac q = .ok r q') :
    SameDir d (q'.num mDt) ∧ q'.num mT ∈ duringStep (q.num mT) (q.num mDt) := by
  unfold rosDenseDoStep at e
  obtain ⟨t, h₂, e2, e⟩ := bind_ok_inv e
  cases e2
  obtain ⟨_, h₂, e2, e⟩ := bind_ok_inv e
  cases e2
  have hT : (q.putNum mTOld (q.num mT)).num mT = q.num mT := by rw [Heap.putNum_num, if_neg (by simp [mT, mTOld])]
  have hD : (q.putNum mTOld (q.num mT)).num mDt = q.num mDt := by rw [Heap.putNum_num, if_neg (by simp [mDt, mTOld])]
  obtain ⟨s₁, h₄, e4, e⟩ := bind_ok_inv e
  obtain ⟨s, h₃, e3, e⟩ := bind_ok_inv e
  cases e
  rw [← hD] at hd
  have key := whileM_ok_inv₂ (DenseInv d _ _) (fun s h' s' h'' hi hc e => rosDenseLoop_inv hO heps hm hd hi (by simpa using hc) e)
    (rosDenseLoop_inv hO heps hm hd (DenseInv.start hd) rfl e4) e3
  rw [← hT, ← hD]
  exact ⟨key.1.1, key.1.2.1 (by simpa using key.2)⟩

theorem rosDenseObject_forward {eps : ℝ} (P : RosParams ℝ V) (hO : P.O = realOps eps) (heps : 0 ≤ eps) (C : RosCoef ℝ) (solve : ℝ → Mat → V → V)
    (sys : Sys ℝ V W) (jac : Jac ℝ V W Mat) {d : ℝ} (hm : P.maxDt = 0 ∨ SameDir d P.maxDt) : DenseForward d (rosDenseObject P C solve sys jac) := by
  constructor
  · intro q x t dt w q' w' e
    cases e
    have hne : mT ≠ mDt := by simp [mT, mDt]
    simp [rosDenseObject, currentTime, currentTimeStep, Heap.putNum_num, hne]
  · intro q w q' w' e hd
    simp only [rosDenseObject] at e hd ⊢
    cases hc : rosDenseDoStep P C solve sys jac (q.withWorld w.1) with
    | ok u h' =>
      rw [hc] at e
      cases e
      exact rosDenseDoStep_ok hO heps hm (q := q.withWorld w.1) hd hc
    | err _ _ => rw [hc] at e; cases e
    | ub => rw [hc] at e; cases e
    | div => rw [hc] at e; cases e

theorem rosDenseObject_agree {eps : ℝ} (P : RosParams ℝ V) (hO : P.O = realOps eps) (heps : 0 ≤ eps) (solve : ℝ → Mat → V → V) {d : ℝ}
    (hm : P.maxDt = 0 ∨ SameDir d P.maxDt) {I : Set ℝ} {sys sys' : Sys ℝ V W} {jac jac' : Jac ℝ V W Mat}
    (h : ∀ τ ∈ I, ∀ x, sys x τ = sys' x τ) (hj : ∀ τ ∈ I, ∀ x, jac x τ = jac' x τ) :
    DenseAgree d I (rosDenseObject P defaultRosenbrock solve sys jac) (rosDenseObject P defaultRosenbrock solve sys' jac') where
  init := rfl
  calcState := rfl
  curState := rfl
  curTime := rfl
  curDt := rfl
  doStep q hd hq := by
    funext w
    simp only [rosDenseObject]
    rw [rosDenseDoStep_agree P hO heps solve hm h hj (q.withWorld w.1) hq hd]

/-- **C83, integrate functions with `rosenbrock4_dense_output`**: `integrate_n_steps`, `integrate_adaptive` and, for times in the direction of integration,
`integrate_times` use system function and Jacobian only between start and end.  Missing: `integrate_const`, which steps beyond the end
(`integrate_const_dense_outside`). -/
theorem integrate_dense_rosenbrock_inside_partial {e : ℝ} (P : RosParams ℝ V) (hO : P.O = realOps e) (he : 0 ≤ e) (solve : ℝ → Mat → V → V)
    (obs : Observer (W × Log V ℝ) V ℝ) (eps : ℝ) (heps : 0 ≤ eps) (q : Heap ℝ V W) (x : V) (t0 t1 dt : ℝ) (hdt : dt ≠ 0)
    (hm : P.maxDt = 0 ∨ SameDir dt P.maxDt) (n : ℕ) (times : List ℝ) (hmono : MonotoneTimes dt (t0 :: times))
    (sys sys' : Sys ℝ V W) (jac jac' : Jac ℝ V W Mat) :
    let st := fun (f : Sys ℝ V W) (J : Jac ℝ V W Mat) => rosDenseObject P defaultRosenbrock solve f J
    let Agree := fun I : Set ℝ => (∀ t ∈ I, ∀ x, sys x t = sys' x t) ∧ (∀ t ∈ I, ∀ x, jac x t = jac' x t)
    (Agree (during eps dt t0 (t0 + n * dt)) →
      integrateNStepsDense (TimeArith.exact ℝ eps) (st sys jac) obs q x t0 dt n = integrateNStepsDense (TimeArith.exact ℝ eps) (st sys' jac') obs q x t0 dt n) ∧
    (Agree (during eps dt t0 t1) →
      integrateAdaptiveDense (TimeArith.exact ℝ eps) (st sys jac) obs q x t0 t1 dt = integrateAdaptiveDense (TimeArith.exact ℝ eps) (st sys' jac') obs q x t0 t1 dt) ∧
    (Agree (during eps dt t0 (times.getLastD t0)) →
      integrateTimesDense (TimeArith.exact ℝ eps) (st sys jac) obs q x (t0 :: times) dt =
        integrateTimesDense (TimeArith.exact ℝ eps) (st sys' jac') obs q x (t0 :: times) dt) :=
  ⟨fun h => integrateNStepsDense_agree heps (rosDenseObject_agree P hO he solve hm h.1 h.2) (rosDenseObject_forward P hO he _ solve sys jac hm) hdt q x,
    fun h => integrateAdaptiveDense_agree heps (rosDenseObject_agree P hO he solve hm h.1 h.2) (rosDenseObject_forward P hO he _ solve sys jac hm) hdt q x,
    fun h => integrateTimesDense_agree heps hmono (rosDenseObject_agree P hO he solve hm h.1 h.2) (rosDenseObject_forward P hO he _ solve sys jac hm) hdt q x⟩

/-- A concrete case: `x' = - x / t` and its Jacobian throw for `t ≤ 0`; `integrate_times` for the times 1, 2 and 3 never meets the exception. -/
example (error : ℝ → ℝ → ℝ → ℝ) (q : Heap ℝ ℝ Unit) :
    let P : RosParams ℝ ℝ := ⟨realOps 0, 0, error⟩
    let solve : ℝ → ℝ → ℝ → ℝ := fun c J b => b / (c - J)
    let sys : Sys ℝ ℝ Unit := fun x t => pure (-x / t)
    let jac : Jac ℝ ℝ Unit ℝ := fun x t => pure (-1 / t, x / t ^ 2)
    let bad : Sys ℝ ℝ Unit := fun x t => if t ≤ 0 then M.throw (.user 7) else sys x t
    let badJac : Jac ℝ ℝ Unit ℝ := fun x t => if t ≤ 0 then M.throw (.user 8) else jac x t
    integrateTimesDense (TimeArith.exact ℝ 0) (rosDenseObject P defaultRosenbrock solve bad badJac) recordObserver q 5 [1, 2, 3] (1 / 10) =
      integrateTimesDense (TimeArith.exact ℝ 0) (rosDenseObject P defaultRosenbrock solve sys jac) recordObserver q 5 [1, 2, 3] (1 / 10) := by
  intro P solve sys jac bad badJac
  refine (integrate_dense_rosenbrock_inside_partial P rfl le_rfl solve recordObserver 0 le_rfl q 5 1 3 (1 / 10) (by norm_num) (Or.inl rfl) 0 [2, 3]
    (by norm_num [MonotoneTimes]) bad sys badJac jac).2.2 ?_
  have pos : ∀ t ∈ during (0 : ℝ) (1 / 10) 1 3, ¬ t ≤ 0 := by
    intro t ht
    unfold during at ht
    rw [if_pos (by norm_num)] at ht
    have := ht.1
    exact not_le.2 (by linarith)
  exact ⟨fun t ht x => by simp only [bad, if_neg (pos t ht)], fun t ht x => by simp only [badJac, if_neg (pos t ht)]⟩

end Verif
