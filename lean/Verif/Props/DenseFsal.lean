import Verif.Props.DenseRk

/-!
# C34: the dense output stepper of `controlled_runge_kutta< runge_kutta_dopri5 >`
-/

set_option linter.unusedSectionVars false

namespace Verif
variable {K V W α : Type}
variable [Add K] [Sub K] [Mul K] [Div K] [IntCast K] [StateOps K V]

/-- the derivative at the current state -/
theorem fsalDenseDeriv_spec (sys : Sys K V W) (h : Heap K V W) (a : DopriDense K V W) (hR : a.InHeap h) :
    match a.deriv sys a.world with
    | .ok k w => ∃ h', fsalDenseDeriv sys h = .ok () h' ∧
        DopriDense.InHeap h' ⟨a.x, a.t, a.dt, some k, none, a.user, w⟩ ∧ h'.flag mCurX1 = h.flag mCurX1
    | .err e w => ∃ h', fsalDenseDeriv sys h = .err e h' ∧
        DopriDense.InHeap h' ⟨a.x, a.t, a.dt, a.k, a.last, a.user, w⟩
    | .ub => fsalDenseDeriv sys h = .ub
    | .div => fsalDenseDeriv sys h = .div := by
  obtain ⟨rx, rt, rdt, rflag, rk, rlast, ruser, rworld⟩ := hR
  unfold DopriDense.deriv fsalDenseDeriv getFlag getNum callSys setFlag
  simp only [M.bind_apply]
  have hc : h.state (getCurrent (h.flag mCurX1)) = a.x := rx
  have ht : h.num mT = a.t := rt
  cases hk : a.k with
  | some k =>
    rw [hk] at rflag
    simp only [rflag, Option.isSome_some, Bool.not_true, Bool.false_eq_true, if_false, M.pure_apply]
    refine ⟨h, rfl, ⟨rx, rt, rdt, rflag, ?_, by simp, ruser, rworld⟩, rfl⟩
    rintro k' ⟨⟩
    exact rk k hk
  | none =>
    rw [hk] at rflag
    simp only [rflag, Option.isSome_none, Bool.not_false, if_true, M.bind_apply, hc, ht, rworld]
    cases hs : sys a.x a.t a.world with
    | ok k w =>
      have c1 : mCurX1 ≠ mDerivInit := by simp [mCurX1, mDerivInit]
      have cne : getCurrent (h.flag mCurX1) ≠ getCurrentDeriv (h.flag mCurX1) := by
        cases h.flag mCurX1 <;> simp [getCurrent, getCurrentDeriv, mX1, mX2, mDxdt1, mDxdt2]
      refine ⟨_, rfl, ⟨?_, rt, rdt, by simp, ?_, by simp, ?_, rfl⟩, ?_⟩
      · simp only [currentState, Heap.putFlag_flag_ne _ _ c1, Heap.putFlag_state, Heap.put_flag]
        rw [Heap.put_state_ne _ _ _ cne]; exact rx
      · rintro k' ⟨⟩
        simp only [Heap.putFlag_flag_ne _ _ c1, Heap.putFlag_state, Heap.put_flag]
        simp
      · intro n
        simp only [Heap.putFlag_state]
        rw [Heap.put_state_ne, ruser]
        cases h.flag mCurX1 <;> simp [getCurrentDeriv, mDxdt1, mDxdt2]
      · simp only [Heap.putFlag_flag_ne _ _ c1, Heap.put_flag]
    | err e w =>
      refine ⟨_, rfl, ⟨rx, rt, rdt, rflag, ?_, ?_, ruser, rfl⟩⟩
      · intro k hk'; cases hk'
      · intro s hs'
        have := (rlast s hs').2.2.2.2.2.2.2
        rw [hk] at this; cases this
    | ub => rfl
    | div => rfl

theorem dopri_dense_do_step (P : CtrlParams K V) (sys : Sys K V W) (h : Heap K V W) (a : DopriDense K V W)
    (hR : a.InHeap h) :
    SameRes DopriDense.InHeap (fsalDenseDoStep P dopri5ErrImpl sys h) (a.step P sys) := by
  have H := fsalDenseDeriv_spec sys h a hR
  unfold fsalDenseDoStep DopriDense.step
  rw [M.bind_apply]
  cases hd : a.deriv sys a.world with
  | ub => rw [hd] at H; rw [H]; trivial
  | div => rw [hd] at H; rw [H]; trivial
  | err e w =>
    rw [hd] at H
    obtain ⟨h', e1, e2⟩ := H
    rw [e1]; exact ⟨rfl, e2⟩
  | ok k w =>
    rw [hd] at H
    obtain ⟨h₁, e1, e2, e3⟩ := H
    rw [e1]
    simp only
    unfold getNum setNum toggleCurrentState setFlag getFlag
    simp only [M.bind_apply]
    -- the loop starts in h₂
    obtain ⟨rx, rt, rdt, rflag, rk, rlast, ruser, rworld⟩ := e2
    have hT : h₁.num mT = a.t := rt
    have L := dopriLoop P sys (h₁.flag mCurX1) a.x k a.t defaultMaxSteps 0 rfl a.dt (h₁.putNum mTOld (h₁.num mT)) false
      rfl (by rw [Heap.putNum_num, if_neg (by simp [mT, mTOld])]; exact rt)
      (by rw [Heap.putNum_num, if_neg (by simp [mDt, mTOld])]; exact rdt) rx (rk k rfl)
    change LoopPost _ _ (fsalDenseLoop P dopri5ErrImpl sys (h₁.putNum mTOld (h₁.num mT))) _ at L
    have hw : (h₁.putNum mTOld (h₁.num mT)).world = w := rworld
    rw [hw] at L
    generalize hbdef : h₁.flag mCurX1 = b at *
    have cTO : ∀ {h' : Heap K V W}, KeepsDense b (h₁.putNum mTOld (h₁.num mT)) h' → h'.num mTOld = a.t := by
      intro h' hk
      rw [(hk mTOld (dense_not_owned _) (by cases b <;> simp [getOld, mX1, mX2, mTOld])
        (by cases b <;> simp [getOldDeriv, mDxdt1, mDxdt2, mTOld]) (by simp [mT, mTOld]) (by simp [mDt, mTOld])).2.1,
        Heap.putNum_num, if_pos rfl, hT]
    have cDI : ∀ {h' : Heap K V W}, KeepsDense b (h₁.putNum mTOld (h₁.num mT)) h' → h'.flag mDerivInit = true := by
      intro h' hk
      rw [(hk mDerivInit (dense_not_owned _) (by cases b <;> simp [getOld, mX1, mX2, mDerivInit])
        (by cases b <;> simp [getOldDeriv, mDxdt1, mDxdt2, mDerivInit]) (by simp [mT, mDerivInit])
        (by simp [mDt, mDerivInit])).2.2.1]
      exact rflag
    have cU : ∀ {h' : Heap K V W}, KeepsDense b (h₁.putNum mTOld (h₁.num mT)) h' → ∀ n, h'.state (.user n) = a.user n := by
      intro h' hk n
      rw [(hk (.user n) (ownedBy_user _ _) (by cases b <;> simp [getOld, mX1, mX2])
        (by cases b <;> simp [getOldDeriv, mDxdt1, mDxdt2]) (by simp [mT]) (by simp [mDt])).1]
      exact ruser n
    have cF : ∀ {h' : Heap K V W}, KeepsDense b (h₁.putNum mTOld (h₁.num mT)) h' → h'.flag mCurX1 = b :=
      fun hk => hk.flag.trans hbdef
    have rx' : h₁.state (getCurrent b) = a.x := by rw [← hbdef]; exact rx
    have rk' : h₁.state (getCurrentDeriv b) = k := rk k rfl
    rcases hm : dopri5Trials P sys a.x k a.t defaultMaxSteps a.dt w with ⟨⟨r, t', dt'⟩ | ⟨e, t', dt'⟩, w'⟩ | ⟨e, w'⟩ | _ | _
    · rw [hm] at L
      obtain ⟨h', c', l1, l2, l3, l4, l5, l6⟩ := L
      rw [l1]
      simp only [M.pure_apply]
      obtain ⟨s1, s2, s3, s4, s5, s6⟩ := l6
      have ne : mDerivInit ≠ mCurX1 := by simp [mCurX1, mDerivInit]
      refine ⟨?_, ?_, l4, l5, ?_, ?_, ?_, fun n => cU l3 n, l2⟩
      · simp only [Heap.putFlag_num, cTO l3, l4]
      · simp only [currentState, Heap.putFlag_state, Heap.putFlag_flag_self, cF l3]
        rw [← s1]; cases b <;> rfl
      · rw [Heap.putFlag_flag_ne _ _ ne, cDI l3]; rfl
      · rintro k' ⟨⟩
        simp only [Heap.putFlag_state, Heap.putFlag_flag_self, cF l3]
        rw [← s2]; cases b <;> rfl
      · rintro s ⟨⟩
        simp only [previousState, previousTime, Heap.putFlag_state, Heap.putFlag_flag_self, Heap.putFlag_num, cF l3]
        refine ⟨?_, cTO l3, ?_, s3, s4, s5, s6, trivial⟩
        · rw [← rx', ← show h'.state (getCurrent b) = h₁.state (getCurrent b) from l3.current]; cases b <;> rfl
        · rw [← rk', ← show h'.state (getCurrentDeriv b) = h₁.state (getCurrentDeriv b) from l3.deriv]; cases b <;> rfl
    · rw [hm] at L
      obtain ⟨h', l1, l2, l3, l4, l5⟩ := L
      rw [l1]
      refine ⟨rfl, ?_, l4, l5, by rw [cDI l3]; rfl, ?_, by simp, cU l3, l2⟩
      · rw [currentState, cF l3, l3.current]; exact rx'
      · rintro k' ⟨⟩
        rw [cF l3, l3.deriv]; exact rk'
    · rw [hm] at L; exact L.elim
    · rw [hm] at L; rw [show fsalDenseLoop P dopri5ErrImpl sys (h₁.putNum mTOld (h₁.num mT)) = _ from L]; trivial
    · rw [hm] at L; rw [show fsalDenseLoop P dopri5ErrImpl sys (h₁.putNum mTOld (h₁.num mT)) = _ from L]; trivial

/-- Every call on the dense output stepper is allowed by the call on values. -/
theorem dopri_dense_call (P : CtrlParams K V) (sys : Sys K V W) (c : DenseCall K) (h : Heap K V W)
    (a : DopriDense K V W) (hR : a.InHeap h) :
    Allowed DopriDense.InHeap (dopriDenseCall P sys c h) (a.call P sys c) := by
  cases c with
  | init x0 t0 dt0 =>
    right
    obtain ⟨rx, rt, rdt, rflag, rk, rlast, ruser, rworld⟩ := hR
    refine ⟨rfl, ?_, ?_, ?_, ?_, by simp, by simp, ?_, rworld⟩
    · simp only [currentState, Heap.putFlag_state, Heap.putNum_state]
      rw [Heap.putFlag_flag_ne _ _ (by simp [mCurX1, mDerivInit])]
      simp only [Heap.putNum_flag, Heap.set_flag, Heap.set_state_self]
      exact ruser x0
    · simp [currentTime, Heap.putNum_num, mT, mDt]
    · simp [currentTimeStep, Heap.putNum_num, mT, mDt]
    · simp
    · intro n
      simp only [Heap.putFlag_state, Heap.putNum_state]
      rw [Heap.set_state_ne, ruser]
      cases h.flag mCurX1 <;> simp [getCurrent, mX1, mX2]
  | step =>
    right
    have H := dopri_dense_do_step P sys h a hR
    unfold dopriDenseCall DopriDense.call
    dsimp only
    rw [M.bind_apply]
    cases h1 : fsalDenseDoStep P dopri5ErrImpl sys h <;> cases h2 : a.step P sys <;> rw [h1, h2] at H <;> try exact H.elim
    · obtain ⟨rfl, H⟩ := H; exact ⟨rfl, H⟩
    · exact H
    · trivial
    · trivial
  | calcAt t x =>
    unfold dopriDenseCall DopriDense.call
    cases hl : a.last with
    | none => left; rfl
    | some s =>
      right
      obtain ⟨rx, rt, rdt, rflag, rk, rlast, ruser, rworld⟩ := hR
      obtain ⟨l1, l2, l3, l4, l5, l6, l7, l8⟩ := rlast s hl
      have rk7 := rk s.k7 l8
      have hv : lin (((lit 1, getOld (h.flag mCurX1)) ::
          ((dopri5DenseB ((t - h.num mTOld) / (h.num mT - h.num mTOld))).map ((h.num mT - h.num mTOld) * ·)).zip
            [getOldDeriv (h.flag mCurX1), mK 3, mK 4, mK 5, mK 6, getCurrentDeriv (h.flag mCurX1)]).map
              fun p => (p.1, h.state p.2)) = dopri5Interpolant s a.t t := by
        have q1 : h.num mTOld = s.tOld := l2
        have q2 : h.num mT = a.t := rt
        have q3 : h.state (getOld (h.flag mCurX1)) = s.xOld := l1
        unfold dopri5Interpolant dopri5DenseB
        simp only [q1, q2, List.map, List.zip, List.zipWith, q3, l3, l4, l5, l6, l7, rk7]
      unfold fsalDenseCalcState dopri5CalcState getFlag getNum linTo
      simp only [M.bind_apply, M.pure_apply, hv]
      have hne : ∀ b, getCurrent b ≠ .user x ∧ getOld b ≠ .user x ∧ getCurrentDeriv b ≠ .user x ∧
          getOldDeriv b ≠ .user x := by
        intro b; cases b <;> simp [getCurrent, getOld, getCurrentDeriv, getOldDeriv, mX1, mX2, mDxdt1, mDxdt2]
      have hk : ∀ i, mK i ≠ .user x := by intro i; simp [mK]
      refine ⟨rfl, ?_, rt, rdt, rflag, ?_, ?_, ?_, rworld⟩
      · simp only [currentState, Heap.set_flag]
        rw [Heap.set_state_ne _ _ (hne _).1]; exact rx
      · intro k hk'
        simp only [Heap.set_flag]
        rw [Heap.set_state_ne _ _ (hne _).2.2.1]; exact rk k hk'
      · intro s' hs'
        cases hs'
        simp only [previousState, previousTime, Heap.set_flag, Heap.set_num, Heap.set_state_ne _ _ (hne _).2.1,
          Heap.set_state_ne _ _ (hne _).2.2.2, Heap.set_state_ne _ _ (hk _)]
        exact ⟨l1, l2, l3, l4, l5, l6, l7, l8⟩
      · intro n
        by_cases hn : n = x
        · subst hn; simp
        · rw [Heap.set_state_ne _ _ (by simpa using hn), ruser]
          exact (Function.update_of_ne hn _ _).symm

/-- **C34** (`runge_kutta_dopri5`): every sequence of calls of `initialize`, `do_step` and `calc_state` on the dense output
stepper has the results, accessor values, user objects and exceptions of the sequence of calls on values - unless it
calls `calc_state` when there is no last step. -/
theorem dopri_dense_history (P : CtrlParams K V) (sys : Sys K V W) (cs : List (DenseCall K)) (h : Heap K V W)
    (a : DopriDense K V W) (hR : a.InHeap h) :
    Allowed DopriDense.InHeap (runSeq (dopriDenseCall P sys) cs h) (runSeq (fun c a => a.call P sys c) cs a) :=
  runSeq_allowed (fun c h a hR => dopri_dense_call P sys c h a hR) cs h a hR

end Verif
