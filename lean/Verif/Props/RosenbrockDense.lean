import Verif.Props.Rosenbrock
import Verif.Props.DenseRk

/-!
# C34, C33: `rosenbrock4_dense_output`
-/

set_option linter.unusedSectionVars false

namespace Verif
variable {K V W Mat : Type}

section
variable [Add K] [Sub K] [Mul K] [Div K] [IntCast K] [StateOps K V]

theorem dense_not_ros (i : ℕ) : ¬ (Loc.priv .dense i).ownedBy rosOwners := by simp [Loc.ownedBy]

/-- Nothing but the two time variables, the buffer of the old state and the stepper changes. -/
def KeepsRos (b : Bool) (h h' : Heap K V W) : Prop :=
  ∀ l, ¬ l.ownedBy rosOwners → l ≠ getOld b → l ≠ mT → l ≠ mDt → h.SameAt h' l

theorem KeepsRos.trans {b : Bool} {h₁ h₂ h₃ : Heap K V W} (a : KeepsRos b h₁ h₂) (c : KeepsRos b h₂ h₃) :
    KeepsRos b h₁ h₃ := fun l h1 h2 h3 h4 => (a l h1 h2 h3 h4).trans (c l h1 h2 h3 h4)

theorem KeepsRos.after {b : Bool} {h h' : Heap K V W} (t' dt' : K)
    (hs : ∀ l, ¬ l.ownedBy rosOwners → l ≠ getOld b → h.SameAt h' l) :
    KeepsRos b h ((h'.putNum mT t').putNum mDt dt') := by
  intro l h1 h2 h4 h5
  obtain ⟨a1, a2, a3, a4⟩ := hs l h1 h2
  refine ⟨a1, ?_, a3, a4⟩
  rw [Heap.putNum_num, Heap.putNum_num, if_neg h5, if_neg h4]; exact a2

theorem KeepsRos.flag {b : Bool} {h h' : Heap K V W} (a : KeepsRos b h h') : h'.flag mCurX1 = h.flag mCurX1 :=
  (a mCurX1 (dense_not_ros _) (cur_ne b).1 (cur_ne b).2.2.1 (cur_ne b).2.2.2).2.2.1

theorem current_not_ros (b : Bool) : ¬ (getCurrent b).ownedBy rosOwners := by cases b <;> exact dense_not_ros _
theorem old_not_ros (b : Bool) : ¬ (getOld b).ownedBy rosOwners := by cases b <;> exact dense_not_ros _

theorem KeepsRos.current {b : Bool} {h h' : Heap K V W} (a : KeepsRos b h h') :
    h'.state (getCurrent b) = h.state (getCurrent b) :=
  (a _ (current_not_ros b) (by cases b <;> simp [getOld, getCurrent, mX1, mX2])
    (by cases b <;> simp [getCurrent, mX1, mX2, mT]) (by cases b <;> simp [getCurrent, mX1, mX2, mDt])).1

/-- what the loop must do, given what the trials on values do -/
def RosLoopPost (b : Bool) (h : Heap K V W) (p : Res (Heap K V W) (Bool × ℕ)) : Res W (RosTrials K V) → Prop
  | .ok (.done r t' dt' m) w => ∃ h' c', p = .ok (true, c') h' ∧
      h'.world = w ∧ KeepsRos b h h' ∧ h'.num mT = t' ∧ h'.num mDt = dt' ∧ rosMem h' = m ∧
      h'.state (getOld b) = r.x K ∧ StagesIn h' r
  | .ok (.threw e t' dt' m) w => ∃ h', p = .err e h' ∧
      h'.world = w ∧ KeepsRos b h h' ∧ h'.num mT = t' ∧ h'.num mDt = dt' ∧ rosMem h' = m
  | .err _ _ => False
  | .ub => p = .ub
  | .div => p = .div

theorem RosLoopPost.trans {b : Bool} {h h₁ : Heap K V W} {p : Res (Heap K V W) (Bool × ℕ)} {m : Res W (RosTrials K V)}
    (hk : KeepsRos b h h₁) (H : RosLoopPost b h₁ p m) : RosLoopPost b h p m := by
  rcases m with ⟨⟨r, t', dt'⟩ | ⟨e, t', dt'⟩, w⟩ | ⟨e, w⟩ | _ | _
  · obtain ⟨h', c', a1, a2, a3, a4⟩ := H
    exact ⟨h', c', a1, a2, hk.trans a3, a4⟩
  · obtain ⟨h', a1, a2, a3, a4⟩ := H
    exact ⟨h', a1, a2, hk.trans a3, a4⟩
  · exact H
  · exact H
  · exact H

theorem rosDenseBody_apply (P : RosParams K V) (C : RosCoef K) (solve : K → Mat → V → V) (sys : Sys K V W)
    (jac : Jac K V W Mat) (s : Bool × ℕ) (h : Heap K V W) :
    rosDenseBody P C solve sys jac s h =
      match rosTry5 P C solve sys jac (getCurrent (h.flag mCurX1)) (h.num mT) (getOld (h.flag mCurX1)) (h.num mDt) h with
      | .ok r h' => if s.2 ≥ defaultMaxSteps then .err .stepAdjustment ((h'.putNum mT r.t).putNum mDt r.dt)
          else .ok (r.success, s.2 + 1) ((h'.putNum mT r.t).putNum mDt r.dt)
      | .err e h' => .err e h'
      | .ub => .ub
      | .div => .div := by
  unfold rosDenseBody getFlag getNum setNum failedStepChecker
  simp only [M.bind_apply]
  cases rosTry5 P C solve sys jac (getCurrent (h.flag mCurX1)) (h.num mT) (getOld (h.flag mCurX1)) (h.num mDt) h with
  | ok r h' =>
    by_cases hc : s.2 ≥ defaultMaxSteps
    · simp only [if_pos hc]; rfl
    · simp only [if_neg hc]; rfl
  | err => rfl
  | ub => rfl
  | div => rfl

theorem rosMem_putNum (h : Heap K V W) (a b : K) : rosMem ((h.putNum mT a).putNum mDt b) = rosMem h := by
  simp [rosMem, Heap.putNum_num, rErrOld, rDtOld, mT, mDt]

theorem rosLoop (P : RosParams K V) (C : RosCoef K) (solve : K → Mat → V → V) (sys : Sys K V W) (jac : Jac K V W Mat)
    (b : Bool) (x : V) (t : K) (n c : ℕ) (hn : n + c = defaultMaxSteps) (m : RosMem K) (dt : K) (h : Heap K V W) (s : Bool)
    (hb : h.flag mCurX1 = b) (ht : h.num mT = t) (hdt : h.num mDt = dt) (hm : rosMem h = m)
    (hx : h.state (getCurrent b) = x) :
    RosLoopPost b h ((rosDenseBody P C solve sys jac (s, c) >>=
        whileM (fun s : Bool × ℕ => !s.1) (rosDenseBody P C solve sys jac)) h)
      (rosTrials P C solve sys jac x t n m dt h.world) := by
  have threw : ∀ {m dt w e} {h h' : Heap K V W}, h.num mT = t → h.num mDt = dt → rosMem h = m → h'.world = w →
      rosMem h' = rosMem h → (∀ l, ¬ l.ownedBy rosOwners → h.SameAt h' l) →
      RosLoopPost b h (.err e h') (.ok (.threw e t dt m) w) := fun q1 q2 q3 e2 e3 e4 =>
    ⟨_, rfl, e2, fun l h1 _ _ _ => e4 l h1, (e4 _ (dense_not_ros _)).2.1.trans q1,
      (e4 _ (dense_not_ros _)).2.1.trans q2, e3.trans q3⟩
  have hTr' := fun (dt : K) (h : Heap K V W) => rosTry5_spec P C solve sys jac (getCurrent b) t (getOld b) dt h (current_not_ros b)
    (not_owned_sub (old_not_ros b) (by simp)) (by cases b <;> simp [getOld, mX1, mX2, mXerr])
    (by cases b <;> simp [getOld, getCurrent, mX1, mX2])
  induction n generalizing c dt h s m with
  | zero =>
    have hc : c ≥ defaultMaxSteps := by omega
    have hTr := hTr' dt h
    rw [hx, hm] at hTr
    rw [M.bind_apply, rosDenseBody_apply, hb, ht, hdt]
    unfold rosTrials
    cases hT : rosTrial P C solve sys jac m x t dt h.world with
    | ok T w =>
      obtain ⟨T, m'⟩ := T
      rw [hT] at hTr
      obtain ⟨h', e1, e2, em, e4, ec, e3⟩ := hTr
      simp only [e1, hc, if_true]
      cases T <;>
      · refine ⟨_, rfl, e2, KeepsRos.after _ _ e3, ?_, ?_, (rosMem_putNum _ _ _).trans em⟩ <;>
          simp [Heap.putNum_num, mT, mDt, Trial.out]
    | err e w =>
      rw [hT] at hTr
      obtain ⟨h', e1, e2, e3, e4⟩ := hTr
      simp only [e1]
      exact threw ht hdt hm e2 (e3.trans hm.symm) e4
    | ub => rw [hT] at hTr; simp only [hTr]; rfl
    | div => rw [hT] at hTr; simp only [hTr]; rfl
  | succ n ih =>
    have hc : ¬ c ≥ defaultMaxSteps := by omega
    have hTr := hTr' dt h
    rw [hx, hm] at hTr
    rw [M.bind_apply, rosDenseBody_apply, hb, ht, hdt]
    unfold rosTrials
    cases hT : rosTrial P C solve sys jac m x t dt h.world with
    | ok T w =>
      obtain ⟨T, m'⟩ := T
      rw [hT] at hTr
      obtain ⟨h', e1, e2, em, e4, ec, e3⟩ := hTr
      simp only [e1, hc, if_false]
      have again : ∀ dt', RosLoopPost b h
          (whileM (fun s : Bool × ℕ => !s.1) (rosDenseBody P C solve sys jac) (false, c + 1)
            ((h'.putNum mT t).putNum mDt dt')) (rosTrials P C solve sys jac x t n m' dt' w) := by
        intro dt'
        have hk₁ : KeepsRos b h ((h'.putNum mT t).putNum mDt dt') := KeepsRos.after _ _ e3
        rw [whileM_true (by rfl)]
        have := ih (c + 1) (by omega) m' dt' ((h'.putNum mT t).putNum mDt dt') false (hk₁.flag.trans hb)
          (by simp [Heap.putNum_num, mT, mDt]) (by simp [Heap.putNum_num]) ((rosMem_putNum _ _ _).trans em)
          (hk₁.current.trans hx)
        rw [← e2]
        exact this.trans hk₁
      cases T with
      | limited d => exact again d
      | rejected r e d => exact again d
      | accepted r e d =>
        simp only [Trial.out]
        rw [whileM_false (by rfl)]
        obtain ⟨f1, f2⟩ := e4 r rfl
        refine ⟨_, _, rfl, e2, KeepsRos.after _ _ e3, ?_, ?_, (rosMem_putNum _ _ _).trans em, f1, f2⟩ <;>
          simp [Heap.putNum_num, mT, mDt]
    | err e w =>
      rw [hT] at hTr
      obtain ⟨h', e1, e2, e3, e4⟩ := hTr
      simp only [e1]
      exact threw ht hdt hm e2 (e3.trans hm.symm) e4
    | ub => rw [hT] at hTr; simp only [hTr]; rfl
    | div => rw [hT] at hTr; simp only [hTr]; rfl

theorem ros_dense_do_step (P : RosParams K V) (C : RosCoef K) (solve : K → Mat → V → V) (sys : Sys K V W)
    (jac : Jac K V W Mat) (h : Heap K V W) (a : RosDense K V W) (hR : a.InHeap C h) :
    SameRes (RosDense.InHeap C) (rosDenseDoStep P C solve sys jac h) (a.step P C solve sys jac) := by
  obtain ⟨rx, rt, rdt, rm, rlast, ruser, rworld⟩ := hR
  set h₁ := h.putNum mTOld (h.num mT) with hh₁
  have hT : h.num mT = a.t := rt
  have L := rosLoop P C solve sys jac (h.flag mCurX1) a.x a.t defaultMaxSteps 0 rfl a.mem a.dt h₁ false rfl
    (by rw [hh₁, Heap.putNum_num, if_neg (by simp [mT, mTOld])]; exact rt)
    (by rw [hh₁, Heap.putNum_num, if_neg (by simp [mDt, mTOld])]; exact rdt)
    (by rw [← rm, hh₁]; simp [rosMem, Heap.putNum_num, rErrOld, rDtOld, mTOld]) rx
  have hw : h₁.world = a.world := rworld
  rw [hw] at L
  have rx' : h.state (getCurrent (h.flag mCurX1)) = a.x := rx
  have hfl : h₁.flag mCurX1 = h.flag mCurX1 := rfl
  have hst : h₁.state = h.state := rfl
  generalize hbdef : h.flag mCurX1 = b at *
  have cTO : ∀ {h' : Heap K V W}, KeepsRos b h₁ h' → h'.num mTOld = a.t := by
    intro h' hk
    rw [(hk mTOld (dense_not_ros _) (by cases b <;> simp [getOld, mX1, mX2, mTOld])
      (by simp [mT, mTOld]) (by simp [mDt, mTOld])).2.1, hh₁, Heap.putNum_num, if_pos rfl, hT]
  have cU : ∀ {h' : Heap K V W}, KeepsRos b h₁ h' → ∀ n, h'.state (.user n) = a.user n := by
    intro h' hk n
    rw [(hk (.user n) (ownedBy_user _ _) (by cases b <;> simp [getOld, mX1, mX2]) (by simp [mT]) (by simp [mDt])).1]
    exact ruser n
  have cF : ∀ {h' : Heap K V W}, KeepsRos b h₁ h' → h'.flag mCurX1 = b := fun hk => hk.flag.trans hfl
  have step : rosDenseDoStep P C solve sys jac h =
      ((rosDenseBody P C solve sys jac (false, 0) >>=
        whileM (fun s : Bool × ℕ => !s.1) (rosDenseBody P C solve sys jac)) >>= fun _ => rosPrepare C >>= fun _ =>
        toggleCurrentState >>= fun _ => getNum mTOld >>= fun told => getNum mT >>= fun tnew => pure (told, tnew)) h₁ := by
    unfold rosDenseDoStep
    rw [bind_assoc]
    rfl
  rw [step, M.bind_apply]
  unfold RosDense.step
  rcases hm : rosTrials P C solve sys jac a.x a.t defaultMaxSteps a.mem a.dt a.world with
    ⟨⟨r, t', dt', m'⟩ | ⟨e, t', dt', m'⟩, w'⟩ | ⟨e, w'⟩ | _ | _
  · rw [hm] at L
    obtain ⟨h', c', l1, l2, l3, l4, l5, l6, l7, l8⟩ := L
    rw [l1]
    obtain ⟨s1, s2, s3, s4, s5⟩ := l8
    have e3 : lin ([(C.d21, rG 1), (C.d22, rG 2), (C.d23, rG 3), (C.d24, rG 4), (C.d25, rG 5)].map
        fun q => (q.1, h'.state q.2)) = rosCont3 C r := by
      simp only [List.map, s1, s2, s3, s4, s5, rosCont3]
    have e4 : lin ([(C.d31, rG 1), (C.d32, rG 2), (C.d33, rG 3), (C.d34, rG 4), (C.d35, rG 5)].map
        fun q => (q.1, (h'.set rCont3 (rosCont3 C r)).state q.2)) = rosCont4 C r := by
      simp [Heap.set_state_apply, rG, rCont3, rosCont4]
      simp only [rG] at s1 s2 s3 s4 s5
      simp only [s1, s2, s3, s4, s5]
    have hprep : rosPrepare C h' = .ok () ((h'.set rCont3 (rosCont3 C r)).set rCont4 (rosCont4 C r)) := by
      unfold rosPrepare
      rw [M.bind_apply]
      simp only [linTo]
      rw [e3]
      simp only [e4]
    simp only [M.bind_apply, hprep, toggleCurrentState, getFlag, setFlag, getNum, M.pure_apply]
    have nd : ∀ i, (Loc.priv .dense i) ≠ rCont3 ∧ (Loc.priv .dense i) ≠ rCont4 := by intro i; simp [rCont3, rCont4]
    have ndc : ∀ b, getCurrent b ≠ rCont3 ∧ getCurrent b ≠ rCont4 ∧ getOld b ≠ rCont3 ∧ getOld b ≠ rCont4 := by
      intro b; cases b <;> simp [getCurrent, getOld, mX1, mX2, rCont3, rCont4]
    refine ⟨?_, ?_, l4, l5, ?_, ?_, ?_, l2⟩
    · simp only [Heap.putFlag_num, Heap.set_num, cTO l3, l4]
    · simp only [currentState, Heap.putFlag_state, Heap.putFlag_flag_self, Heap.set_flag, cF l3]
      rw [Heap.set_state_ne _ _ (ndc _).2.1, Heap.set_state_ne _ _ (ndc _).1, ← l7]; cases b <;> rfl
    · rw [← l6]
      simp [rosMem, Heap.putFlag_flag, mCurX1, rFirst, rLastRej]
    · rintro s ⟨⟩
      simp only [previousState, previousTime, Heap.putFlag_state, Heap.putFlag_flag_self, Heap.putFlag_num, Heap.set_flag,
        Heap.set_num, cF l3]
      refine ⟨?_, cTO l3, ?_, ?_⟩
      · rw [Heap.set_state_ne _ _ (ndc _).2.2.2, Heap.set_state_ne _ _ (ndc _).2.2.1, ← rx',
          ← show h'.state (getCurrent b) = h.state (getCurrent b) from l3.current]; cases b <;> rfl
      · rw [Heap.set_state_ne _ _ (by simp [rCont3, rCont4]), Heap.set_state_self]
      · rw [Heap.set_state_self]
    · intro n
      simp only [Heap.putFlag_state]
      rw [Heap.set_state_ne _ _ (by simp [rCont4]), Heap.set_state_ne _ _ (by simp [rCont3]), cU l3]
  · rw [hm] at L
    obtain ⟨h', l1, l2, l3, l4, l5, l6⟩ := L
    rw [l1]
    refine ⟨rfl, ?_, l4, l5, l6, by simp, cU l3, l2⟩
    rw [currentState, cF l3, l3.current, hst]; exact rx'
  · rw [hm] at L; exact L.elim
  · rw [hm] at L; simp only [RosLoopPost] at L; rw [L]; trivial
  · rw [hm] at L; simp only [RosLoopPost] at L; rw [L]; trivial

/-- Every call on the dense output stepper is allowed by the call on values. -/
theorem ros_dense_call (P : RosParams K V) (C : RosCoef K) (solve : K → Mat → V → V) (sys : Sys K V W)
    (jac : Jac K V W Mat) (c : DenseCall K) (h : Heap K V W) (a : RosDense K V W) (hR : a.InHeap C h) :
    Allowed (RosDense.InHeap C) (rosDenseCall P C solve sys jac c h) (a.call P C solve sys jac c) := by
  cases c with
  | init x0 t0 dt0 =>
    right
    obtain ⟨rx, rt, rdt, rm, rlast, ruser, rworld⟩ := hR
    refine ⟨rfl, ?_, ?_, ?_, ?_, by simp, ?_, rworld⟩
    · simp only [currentState, Heap.putNum_state, Heap.putNum_flag, Heap.set_flag, Heap.set_state_self]
      exact ruser x0
    · simp [currentTime, Heap.putNum_num, mT, mDt]
    · simp [currentTimeStep, Heap.putNum_num, mT, mDt]
    · rw [rosMem_putNum]; exact rm
    · intro n
      simp only [Heap.putNum_state]
      rw [Heap.set_state_ne, ruser]
      cases h.flag mCurX1 <;> simp [getCurrent, mX1, mX2]
  | step =>
    right
    have H := ros_dense_do_step P C solve sys jac h a hR
    unfold rosDenseCall RosDense.call
    dsimp only
    rw [M.bind_apply]
    cases h1 : rosDenseDoStep P C solve sys jac h <;> cases h2 : a.step P C solve sys jac <;> rw [h1, h2] at H <;>
      try exact H.elim
    · obtain ⟨rfl, H⟩ := H; exact ⟨rfl, H⟩
    · exact H
    · trivial
    · trivial
  | calcAt t x =>
    unfold rosDenseCall RosDense.call
    cases hl : a.last with
    | none => left; rfl
    | some s =>
      right
      obtain ⟨rx, rt, rdt, rm, rlast, ruser, rworld⟩ := hR
      obtain ⟨l1, l2, l3, l4⟩ := rlast s hl
      have q1 : h.num mTOld = s.tOld := l2
      have q2 : h.num mT = a.t := rt
      have q3 : h.state (getOld (h.flag mCurX1)) = s.xOld := l1
      have q4 : h.state (getCurrent (h.flag mCurX1)) = a.x := rx
      unfold rosDenseCalcState rosCalcState getFlag getNum linTo
      simp only [M.bind_apply, M.pure_apply, List.map, q1, q2, q3, q4, l3, l4]
      have hne : ∀ b, getCurrent b ≠ .user x ∧ getOld b ≠ .user x := by
        intro b; cases b <;> simp [getCurrent, getOld, mX1, mX2]
      refine ⟨rfl, ?_, rt, rdt, rm, ?_, ?_, rworld⟩
      · simp only [currentState, Heap.set_flag]
        rw [Heap.set_state_ne _ _ (hne _).1]; exact rx
      · intro s' hs'
        cases hs'
        simp only [previousState, previousTime, Heap.set_flag, Heap.set_num, Heap.set_state_ne _ _ (hne _).2]
        rw [Heap.set_state_ne _ _ (by simp [rCont3]), Heap.set_state_ne _ _ (by simp [rCont4])]
        exact ⟨l1, l2, l3, l4⟩
      · intro n
        by_cases hn : n = x
        · subst hn; simp [rosInterpolant]
        · rw [Heap.set_state_ne _ _ (by simpa using hn), ruser]
          exact (Function.update_of_ne hn _ _).symm

/-- **C34** (`rosenbrock4_dense_output`): every sequence of calls of `initialize`, `do_step` and `calc_state` on the dense
output stepper has the results, accessor values, user objects and exceptions of the sequence of calls on values - unless
it calls `calc_state` when there is no last step. -/
theorem ros_dense_history (P : RosParams K V) (C : RosCoef K) (solve : K → Mat → V → V) (sys : Sys K V W)
    (jac : Jac K V W Mat) (cs : List (DenseCall K)) (h : Heap K V W) (a : RosDense K V W) (hR : a.InHeap C h) :
    Allowed (RosDense.InHeap C) (runSeq (rosDenseCall P C solve sys jac) cs h)
      (runSeq (fun c a => a.call P C solve sys jac c) cs a) :=
  runSeq_allowed (fun c h a hR => ros_dense_call P C solve sys jac c h a hR) cs h a hR

/-- Whatever the buffers contain, the stepper is in a state of the abstract machine (without a last step). -/
theorem ros_dense_fresh (C : RosCoef K) (h : Heap K V W) : ∃ a : RosDense K V W, a.InHeap C h :=
  ⟨⟨currentState h, currentTime h, currentTimeStep h, rosMem h, none, fun n => h.state (.user n), h.world⟩,
    ⟨rfl, rfl, rfl, rfl, by simp, fun _ => rfl, rfl⟩⟩

/-- **C34**: a successful `do_step` returns the interval from the old to the new current time; the new state is the
result of one step of the method of length `t - t_old` from the old state, whose error was at most 1; this step is
the one the interpolant is computed from. -/
theorem ros_dense_step_spec (P : RosParams K V) (C : RosCoef K) (solve : K → Mat → V → V) (sys : Sys K V W)
    (jac : Jac K V W Mat) (a a' : RosDense K V W) (p : K × K) (hs : a.step P C solve sys jac = .ok p a') :
    p = (a.t, a'.t) ∧ a'.user = a.user ∧ ∃ (dt : K) (r : RosStages V) (w : W),
      a'.t = a.t + dt ∧ rosStep C solve sys jac a.x a.t dt w = .ok r a'.world ∧ a'.x = r.x K ∧
      P.O.le (P.error (r.x K) a.x r.g6) (lit 1) = true ∧ a'.last = some ⟨a.x, a.t, r⟩ := by
  have key : ∀ n m dt w r t dt' m' w', rosTrials P C solve sys jac a.x a.t n m dt w = .ok (.done r t dt' m') w' →
      ∃ d w₁, t = a.t + d ∧ rosStep C solve sys jac a.x a.t d w₁ = .ok r w' ∧
        P.O.le (P.error (r.x K) a.x r.g6) (lit 1) = true := by
    intro n
    induction n with
    | zero =>
      intro m dt w r t dt' m' w' h
      unfold rosTrials at h
      generalize rosTrial P C solve sys jac m a.x a.t dt w = q at h
      rcases q with ⟨⟨_ | _ | _, _⟩, _⟩ | _ | _ | _ <;> cases h
    | succ n ih =>
      intro m dt w r t dt' m' w' h
      unfold rosTrials at h
      cases hT : rosTrial P C solve sys jac m a.x a.t dt w with
      | ok q w₂ =>
        obtain ⟨T, m₂⟩ := q
        rw [hT] at h
        cases T with
        | limited d => exact ih _ _ _ _ _ _ _ _ h
        | rejected r e d => exact ih _ _ _ _ _ _ _ _ h
        | accepted r' e d =>
          simp only [Res.ok.injEq, RosTrials.done.injEq] at h
          obtain ⟨⟨rfl, rfl, rfl, rfl⟩, rfl⟩ := h
          unfold rosTrial at hT
          split at hT
          · cases hT
          · rw [M.bind_apply] at hT
            cases hS : rosStep C solve sys jac a.x a.t dt w with
            | ok r₁ w₁ =>
              rw [hS] at hT
              simp only [M.pure_apply, Res.ok.injEq, Prod.mk.injEq] at hT
              obtain ⟨⟨h1, h2⟩, rfl⟩ := hT
              split at h1
              · injection h1 with e1 e2 e3
                subst e1
                rename_i hd
                exact ⟨dt, w, rfl, hS, by rw [(ros_accept_iff _ _ _ _ _).1] at hd; exact hd⟩
              · cases h1
            | err => rw [hS] at hT; cases hT
            | ub => rw [hS] at hT; cases hT
            | div => rw [hS] at hT; cases hT
      | err e w₂ => rw [hT] at h; simp at h
      | ub => rw [hT] at h; simp at h
      | div => rw [hT] at h; simp at h
  unfold RosDense.step at hs
  rcases hm : rosTrials P C solve sys jac a.x a.t defaultMaxSteps a.mem a.dt a.world with
    ⟨⟨r, t', dt', m'⟩ | ⟨e, t', dt', m'⟩, w'⟩ | ⟨e, w'⟩ | _ | _
  · rw [hm] at hs
    simp only [Res.ok.injEq] at hs
    obtain ⟨rfl, rfl⟩ := hs
    obtain ⟨d, w₁, h1, h2, h3⟩ := key _ _ _ _ _ _ _ _ _ hm
    exact ⟨rfl, rfl, d, r, w₁, h1, h2, rfl, h3, rfl⟩
  all_goals rw [hm] at hs; simp at hs

end

/-! ## The interpolant -/

section Field
variable [Field K] [AddCommGroup V] [Module K V]

/-- **C33** (`rosenbrock4_dense_output`): at the ends of the last step the interpolant is the state there. -/
theorem ros_interpolant_ends (C : RosCoef K) (s : RosLast K V) (xNew : V) (tNew : K) (hne : tNew ≠ s.tOld) :
    rosInterpolant C s xNew tNew s.tOld = s.xOld ∧ rosInterpolant C s xNew tNew tNew = xNew := by
  have L1 : (lit 1 : K) = 1 := by simp [lit]
  have d : tNew - s.tOld ≠ 0 := sub_ne_zero.mpr hne
  constructor
  · simp [rosInterpolant, lin, L1]
  · simp [rosInterpolant, lin, L1, d]

end Field
end Verif
