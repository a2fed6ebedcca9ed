import Verif.Spec.DenseRk
import Verif.Lemmas.ControlledRk

set_option linter.unusedSectionVars false

namespace Verif
variable {K V W α β : Type}

@[simp] theorem Heap.putNum_state (h : Heap K V W) (l : Loc) (b : K) : (h.putNum l b).state = h.state := rfl
@[simp] theorem Heap.putNum_world (h : Heap K V W) (l : Loc) (b : K) : (h.putNum l b).world = h.world := rfl
@[simp] theorem Heap.putNum_flag (h : Heap K V W) (l : Loc) (b : K) : (h.putNum l b).flag = h.flag := rfl
@[simp] theorem Heap.putNum_nat (h : Heap K V W) (l : Loc) (b : K) : (h.putNum l b).nat = h.nat := rfl
theorem Heap.putNum_num (h : Heap K V W) (l l' : Loc) (b : K) :
    (h.putNum l b).num l' = if l' = l then b else h.num l' := by
  simp [Heap.putNum, Function.update_apply]
theorem Heap.putFlag_flag (h : Heap K V W) (l l' : Loc) (b : Bool) :
    (h.putFlag l b).flag l' = if l' = l then b else h.flag l' := by
  simp [Heap.putFlag, Function.update_apply]

/-! ## Stages of a Dormand-Prince step stay in the stepper -/

section
variable [Add K] [Sub K] [Mul K] [Div K] [IntCast K] [StateOps K V]

theorem dopri5Impl_stage (sys : Sys K V W) (inp dxdtIn out dxdtOut : Loc) (t dt : K)
    (h : Heap K V W) (hinp : ¬ inp.ownedBy [.rk]) (hd : ¬ dxdtIn.ownedBy [.rk])
    (hout : ¬ out.ownedBy [.rk]) (hdo : ¬ dxdtOut.ownedBy [.rk]) (hne : out ≠ dxdtOut)
    (i : ℕ) (sel : Dopri5Result V → V)
    (hsel : ∀ (r : Dopri5Result V) (h' : Heap K V W), h'.state (mK 3) = r.k3 → h'.state (mK 4) = r.k4 →
      h'.state (mK 5) = r.k5 → h'.state (mK 6) = r.k6 → h'.state (mK i) = sel r)
    {r : Dopri5Result V} {w : W} {h' : Heap K V W}
    (hs : dopri5Step sys (h.state inp) (h.state dxdtIn) t dt h.world = .ok r w)
    (hp : dopri5Impl sys inp dxdtIn t out dxdtOut dt h = .ok () h') : h'.state (mK i) = sel r := by
  have H : Implements [.rk] h (dopri5Impl sys inp dxdtIn t out dxdtOut dt >>= fun _ => copyTo (mK i) out)
      (dopri5Step sys (h.state inp) (h.state dxdtIn) t dt >>= pure)
      (fun r => [(dxdtOut, r.k7), (out, sel r)]) [out, dxdtOut] := by
    refine dopri5_cont sys inp dxdtIn out dxdtOut t dt h hinp hd hout hdo _ _ _ _ (by simp) (by simp)
      (by simp) (by simp) fun r h' a3 a4 a5 a6 hx hk hf => ?_
    refine ⟨_, rfl, rfl, fun l hl => ⟨?_, rfl, rfl, rfl⟩⟩
    simp only [Heap.setAll_cons, Heap.setAll_nil, Heap.set_state_apply]
    by_cases e : l = out
    · subst e; simp [hsel r h' a3 a4 a5 a6]
    · by_cases e' : l = dxdtOut
      · subst e'; simp [e, hk]
      · simp [e, e']
  unfold Implements at H
  simp only [M.bind_apply, hs, hp, M.pure_apply] at H
  obtain ⟨h'', e1, -, e2⟩ := H
  simp only [copyTo, Res.ok.injEq, true_and] at e1
  subst e1
  have := (e2 out hout).1
  simpa using this

theorem dopri5Err_stage (sys : Sys K V W) (inp dxdtIn out dxdtOut : Loc) (t dt : K)
    (h : Heap K V W) (hinp : ¬ inp.ownedBy [.rk]) (hd : ¬ dxdtIn.ownedBy [.rk])
    (hout : ¬ out.ownedBy [.rk]) (hdo : ¬ dxdtOut.ownedBy [.rk]) (hne : out ≠ dxdtOut) (hdd : dxdtIn ≠ dxdtOut)
    (i : ℕ) (sel : Dopri5Result V → V)
    (hsel : ∀ (r : Dopri5Result V) (h' : Heap K V W), h'.state (mK 3) = r.k3 → h'.state (mK 4) = r.k4 →
      h'.state (mK 5) = r.k5 → h'.state (mK 6) = r.k6 → h'.state (mK i) = sel r)
    {r : Dopri5Result V} {w : W} {h' : Heap K V W}
    (hs : dopri5Step sys (h.state inp) (h.state dxdtIn) t dt h.world = .ok r w)
    (hp : dopri5ErrImpl sys inp dxdtIn t out dxdtOut dt mXerr h = .ok () h') : h'.state (mK i) = sel r := by
  unfold dopri5ErrImpl at hp
  rw [if_neg hdd, M.bind_apply] at hp
  cases hq : dopri5Impl sys inp dxdtIn t out dxdtOut dt h with
  | ok u h1 =>
    rw [hq] at hp
    simp only [linTo, Res.ok.injEq, true_and] at hp
    subst hp
    rw [Heap.set_state_ne _ _ (by simp [mK, mXerr])]
    exact dopri5Impl_stage sys inp dxdtIn out dxdtOut t dt h hinp hd hout hdo hne i sel hsel hs hq
  | err e h1 => rw [hq] at hp; cases hp
  | ub => rw [hq] at hp; cases hp
  | div => rw [hq] at hp; cases hp

/-! ## One trial -/

theorem fsalTrial_eq (P : CtrlParams K V) (sys : Sys K V W) (x k : V) (t dt : K) :
    fsalTrial P dopri5ErrStep sys x k t dt = dopri5Trial P sys x k t dt >>= fun T => pure (match T with
      | .limited d => .limited d
      | .rejected r e d => .rejected (r.x, r.k7) e d
      | .accepted r e d => .accepted (r.x, r.k7) e d) := by
  unfold fsalTrial dopri5Trial dopri5ErrStep
  split
  · rfl
  · simp only [bind_assoc, pure_bind]
    refine bind_congr fun r => ?_
    split <;> rfl

theorem dense_not_owned (i : ℕ) : ¬ (Loc.priv .dense i).ownedBy ctrlOwners := by simp [Loc.ownedBy]

theorem getCurrent_owned (b : Bool) : ¬ (getCurrent b).ownedBy ctrlOwners := by
  cases b <;> exact dense_not_owned _
theorem getOld_owned (b : Bool) : ¬ (getOld b).ownedBy ctrlOwners := by
  cases b <;> exact dense_not_owned _
theorem getCurrentDeriv_owned (b : Bool) : ¬ (getCurrentDeriv b).ownedBy ctrlOwners := by
  cases b <;> exact dense_not_owned _
theorem getOldDeriv_owned (b : Bool) : ¬ (getOldDeriv b).ownedBy ctrlOwners := by
  cases b <;> exact dense_not_owned _

/-- What one `try_step` inside `do_step` does. -/
theorem dopriTry (P : CtrlParams K V) (sys : Sys K V W) (b : Bool) (t dt : K) (h : Heap K V W) :
    match dopri5Trial P sys (h.state (getCurrent b)) (h.state (getCurrentDeriv b)) t dt h.world with
    | .ok T w => ∃ h', fsalTry4 P dopri5ErrImpl sys (getCurrent b) (getCurrentDeriv b) t (getOld b) (getOldDeriv b) dt h =
        .ok (T.out t dt) h' ∧ h'.world = w ∧
        (∀ l, ¬ l.ownedBy ctrlOwners → l ≠ getOld b → l ≠ getOldDeriv b → h.SameAt h' l) ∧
        (∀ r e d, T = .accepted r e d → h'.state (getOld b) = r.x ∧ h'.state (getOldDeriv b) = r.k7 ∧
          h'.state (mK 3) = r.k3 ∧ h'.state (mK 4) = r.k4 ∧ h'.state (mK 5) = r.k5 ∧ h'.state (mK 6) = r.k6)
    | .err e w => ∃ h', fsalTry4 P dopri5ErrImpl sys (getCurrent b) (getCurrentDeriv b) t (getOld b) (getOldDeriv b) dt h =
        .err e h' ∧ h'.world = w ∧
        (∀ l, ¬ l.ownedBy ctrlOwners → l ≠ getOld b → l ≠ getOldDeriv b → h.SameAt h' l)
    | .ub => fsalTry4 P dopri5ErrImpl sys (getCurrent b) (getCurrentDeriv b) t (getOld b) (getOldDeriv b) dt h = .ub
    | .div => fsalTry4 P dopri5ErrImpl sys (getCurrent b) (getCurrentDeriv b) t (getOld b) (getOldDeriv b) dt h = .div := by
  have hdo : getOld b ≠ getOldDeriv b := by cases b <;> simp [getOld, getOldDeriv, mX1, mX2, mDxdt1, mDxdt2]
  have H := (fsalTry4_computes P dopri5ErrImpl dopri5ErrStep sys (getCurrent b) (getCurrentDeriv b) (getOld b)
    (getOldDeriv b) t dt h (getCurrent_owned b) (getCurrentDeriv_owned b) (not_owned_sub (getOld_owned b) (by simp))
    (not_owned_sub (getOldDeriv_owned b) (by simp))
    (by cases b <;> simp [getOld, getCurrent, mX1, mX2])
    (by cases b <;> simp [getOldDeriv, getCurrent, mX1, mX2, mDxdt1, mDxdt2])
    (by cases b <;> simp [getOld, getCurrentDeriv, mX1, mX2, mDxdt1, mDxdt2])
    (by cases b <;> simp [getOldDeriv, getCurrentDeriv, mDxdt1, mDxdt2])
    hdo
    (not_owned_ne (getOld_owned b) mXerr_owned) (not_owned_ne (getOldDeriv_owned b) mXerr_owned)
    (fsalErr_val sys _ _ _ _ t dt h (getCurrent_owned b) (getCurrentDeriv_owned b)
      (not_owned_sub (getOld_owned b) (by simp)) (not_owned_sub (getOldDeriv_owned b) (by simp))
      hdo
      (by cases b <;> simp [getOld, getCurrentDeriv, mX1, mX2, mDxdt1, mDxdt2]))).1
  rw [fsalTrial_eq] at H
  unfold Computes at H
  rw [M.bind_apply] at H
  cases hT : dopri5Trial P sys (h.state (getCurrent b)) (h.state (getCurrentDeriv b)) t dt h.world with
  | ok T w =>
    rw [hT] at H
    simp only [M.pure_apply] at H ⊢
    obtain ⟨h', e1, e2, e3⟩ := H
    refine ⟨h', ?_, e2, ?_, ?_⟩
    · rw [e1]; cases T <;> rfl
    · intro l hl h1 h2
      refine (Heap.SameAt.trans ?_ (e3 l hl))
      cases T <;> simp [Trial.outOfPlaceFsal, Heap.SameAt, Heap.set_state_apply, h1, h2]
    · rintro r e d rfl
      have a1 := (e3 _ (getOld_owned b)).1
      have a2 := (e3 _ (getOldDeriv_owned b)).1
      simp only [Trial.outOfPlaceFsal, Heap.setAll_cons, Heap.setAll_nil, Heap.set_state_self] at a1 a2
      rw [Heap.set_state_ne _ _ hdo, Heap.set_state_self] at a1
      refine ⟨a1, a2, ?_⟩
      -- the stages
      unfold dopri5Trial at hT
      split at hT
      · cases hT
      rename_i hlim
      rw [M.bind_apply] at hT
      cases hs : dopri5Step sys (h.state (getCurrent b)) (h.state (getCurrentDeriv b)) t dt h.world with
      | err _ _ => rw [hs] at hT; cases hT
      | ub => rw [hs] at hT; cases hT
      | div => rw [hs] at hT; cases hT
      | ok r' w' =>
        rw [hs] at hT
        simp only at hT
        have hr : r' = r := by
          split at hT
          · cases hT
          · injection hT with q1 q2; injection q1
        subst hr
        unfold fsalTry4 at e1
        have hl' : (!P.adjuster.checkStepSizeLimit dt) = false := by simpa using hlim
        rw [hl'] at e1
        simp only [Bool.false_eq_true, if_false, M.bind_apply, fsalStep8, setFlag, pure_bind] at e1
        cases hq : dopri5ErrImpl sys (getCurrent b) (getCurrentDeriv b) t (getOld b) (getOldDeriv b) dt mXerr
            (h.putFlag mFirstCall true) with
        | err _ _ => rw [hq] at e1; cases e1
        | ub => rw [hq] at e1; cases e1
        | div => rw [hq] at e1; cases e1
        | ok u h1 =>
          rw [hq] at e1
          simp only [callChecker', M.pure_apply, Res.ok.injEq] at e1
          obtain ⟨-, rfl⟩ := e1
          have key := fun i sel hsel => dopri5Err_stage sys (getCurrent b) (getCurrentDeriv b) (getOld b) (getOldDeriv b)
            t dt (h.putFlag mFirstCall true) (not_owned_sub (getCurrent_owned b) (by simp))
            (not_owned_sub (getCurrentDeriv_owned b) (by simp))
            (not_owned_sub (getOld_owned b) (by simp)) (not_owned_sub (getOldDeriv_owned b) (by simp)) hdo
            (by cases b <;> simp [getOldDeriv, getCurrentDeriv, mDxdt1, mDxdt2]) i sel hsel (r := r') (w := w') hs hq
          refine ⟨?_, ?_, ?_, ?_⟩
          · rw [Heap.set_state_ne _ _ (by simp [mK, mXerr])]
            exact key 3 (·.k3) (fun r h' a b c d => a)
          · rw [Heap.set_state_ne _ _ (by simp [mK, mXerr])]
            exact key 4 (·.k4) (fun r h' a b c d => b)
          · rw [Heap.set_state_ne _ _ (by simp [mK, mXerr])]
            exact key 5 (·.k5) (fun r h' a b c d => c)
          · rw [Heap.set_state_ne _ _ (by simp [mK, mXerr])]
            exact key 6 (·.k6) (fun r h' a b c d => d)
  | err e w =>
    rw [hT] at H
    obtain ⟨h', e1, e2, e3⟩ := H
    exact ⟨h', e1, e2, fun l hl h1 h2 => e3 l hl (by simp [h1, h2])⟩
  | ub => rw [hT] at H; exact H
  | div => rw [hT] at H; exact H

/-! ## The loop -/

/-- Nothing but the two time variables and the buffers of the old state changes. -/
def KeepsDense (b : Bool) (h h' : Heap K V W) : Prop :=
  ∀ l, ¬ l.ownedBy ctrlOwners → l ≠ getOld b → l ≠ getOldDeriv b → l ≠ mT → l ≠ mDt → h.SameAt h' l

theorem KeepsDense.trans {b : Bool} {h₁ h₂ h₃ : Heap K V W} (a : KeepsDense b h₁ h₂) (c : KeepsDense b h₂ h₃) :
    KeepsDense b h₁ h₃ := fun l h1 h2 h3 h4 h5 => (a l h1 h2 h3 h4 h5).trans (c l h1 h2 h3 h4 h5)

/-- the heap after a trial -/
theorem afterTry {b : Bool} {h h' : Heap K V W} (t' dt' : K)
    (hs : ∀ l, ¬ l.ownedBy ctrlOwners → l ≠ getOld b → l ≠ getOldDeriv b → h.SameAt h' l) :
    KeepsDense b h ((h'.putNum mT t').putNum mDt dt') := by
  intro l h1 h2 h3 h4 h5
  obtain ⟨a1, a2, a3, a4⟩ := hs l h1 h2 h3
  refine ⟨a1, ?_, a3, a4⟩
  rw [Heap.putNum_num, Heap.putNum_num, if_neg h5, if_neg h4]; exact a2

theorem cur_ne (b : Bool) : mCurX1 ≠ getOld b ∧ mCurX1 ≠ getOldDeriv b ∧ mCurX1 ≠ mT ∧ mCurX1 ≠ mDt := by
  cases b <;> simp [mCurX1, getOld, getOldDeriv, mX1, mX2, mDxdt1, mDxdt2, mT, mDt]

theorem KeepsDense.flag {b : Bool} {h h' : Heap K V W} (a : KeepsDense b h h') : h'.flag mCurX1 = h.flag mCurX1 :=
  (a mCurX1 (dense_not_owned _) (cur_ne b).1 (cur_ne b).2.1 (cur_ne b).2.2.1 (cur_ne b).2.2.2).2.2.1

theorem KeepsDense.current {b : Bool} {h h' : Heap K V W} (a : KeepsDense b h h') :
    h'.state (getCurrent b) = h.state (getCurrent b) :=
  (a _ (getCurrent_owned b) (by cases b <;> simp [getOld, getCurrent, mX1, mX2])
    (by cases b <;> simp [getOldDeriv, getCurrent, mX1, mX2, mDxdt1, mDxdt2])
    (by cases b <;> simp [getCurrent, mX1, mX2, mT]) (by cases b <;> simp [getCurrent, mX1, mX2, mDt])).1

theorem KeepsDense.deriv {b : Bool} {h h' : Heap K V W} (a : KeepsDense b h h') :
    h'.state (getCurrentDeriv b) = h.state (getCurrentDeriv b) :=
  (a _ (getCurrentDeriv_owned b) (by cases b <;> simp [getOld, getCurrentDeriv, mX1, mX2, mDxdt1, mDxdt2])
    (by cases b <;> simp [getOldDeriv, getCurrentDeriv, mDxdt1, mDxdt2])
    (by cases b <;> simp [getCurrentDeriv, mDxdt1, mDxdt2, mT])
    (by cases b <;> simp [getCurrentDeriv, mDxdt1, mDxdt2, mDt])).1

/-- the accepted step is in the buffers of the old state and the stages are in the stepper -/
def StepStored (b : Bool) (h : Heap K V W) (r : Dopri5Result V) : Prop :=
  h.state (getOld b) = r.x ∧ h.state (getOldDeriv b) = r.k7 ∧
    h.state (mK 3) = r.k3 ∧ h.state (mK 4) = r.k4 ∧ h.state (mK 5) = r.k5 ∧ h.state (mK 6) = r.k6

/-- what the loop must do, given what the trials on values do -/
def LoopPost (b : Bool) (h : Heap K V W) (p : Res (Heap K V W) (Bool × ℕ)) : Res W (Trials K V) → Prop
  | .ok (.done r t' dt') w => ∃ h' c', p = .ok (true, c') h' ∧
      h'.world = w ∧ KeepsDense b h h' ∧ h'.num mT = t' ∧ h'.num mDt = dt' ∧ StepStored b h' r
  | .ok (.threw e t' dt') w => ∃ h', p = .err e h' ∧
      h'.world = w ∧ KeepsDense b h h' ∧ h'.num mT = t' ∧ h'.num mDt = dt'
  | .err _ _ => False
  | .ub => p = .ub
  | .div => p = .div

theorem LoopPost.trans {b : Bool} {h h₁ : Heap K V W} {p : Res (Heap K V W) (Bool × ℕ)} {m : Res W (Trials K V)}
    (hk : KeepsDense b h h₁) (H : LoopPost b h₁ p m) : LoopPost b h p m := by
  rcases m with ⟨⟨r, t', dt'⟩ | ⟨e, t', dt'⟩, w⟩ | ⟨e, w⟩ | _ | _
  · obtain ⟨h', c', a1, a2, a3, a4⟩ := H
    exact ⟨h', c', a1, a2, hk.trans a3, a4⟩
  · obtain ⟨h', a1, a2, a3, a4⟩ := H
    exact ⟨h', a1, a2, hk.trans a3, a4⟩
  · exact H
  · exact H
  · exact H

theorem fsalDenseBody_apply (P : CtrlParams K V) (sys : Sys K V W) (s : Bool × ℕ) (h : Heap K V W) :
    fsalDenseBody P dopri5ErrImpl sys s h =
      match fsalTry4 P dopri5ErrImpl sys (getCurrent (h.flag mCurX1)) (getCurrentDeriv (h.flag mCurX1)) (h.num mT)
        (getOld (h.flag mCurX1)) (getOldDeriv (h.flag mCurX1)) (h.num mDt) h with
      | .ok r h' => if s.2 ≥ defaultMaxSteps then .err .stepAdjustment ((h'.putNum mT r.t).putNum mDt r.dt)
          else .ok (r.success, s.2 + 1) ((h'.putNum mT r.t).putNum mDt r.dt)
      | .err e h' => .err e h'
      | .ub => .ub
      | .div => .div := by
  unfold fsalDenseBody getFlag getNum setNum failedStepChecker
  simp only [M.bind_apply]
  cases fsalTry4 P dopri5ErrImpl sys (getCurrent (h.flag mCurX1)) (getCurrentDeriv (h.flag mCurX1)) (h.num mT)
    (getOld (h.flag mCurX1)) (getOldDeriv (h.flag mCurX1)) (h.num mDt) h with
  | ok r h' =>
    by_cases hc : s.2 ≥ defaultMaxSteps
    · simp only [if_pos hc]; rfl
    · simp only [if_neg hc]; rfl
  | err => rfl
  | ub => rfl
  | div => rfl

theorem threwPost {b : Bool} {h h' : Heap K V W} {t dt : K} {w : W} {e : Err} (ht : h.num mT = t) (hdt : h.num mDt = dt)
    (e2 : h'.world = w)
    (e3 : ∀ l, ¬ l.ownedBy ctrlOwners → l ≠ getOld b → l ≠ getOldDeriv b → h.SameAt h' l) :
    LoopPost b h (.err e h') (.ok (.threw e t dt) w) := by
  have hT' : mT ≠ getOld b ∧ mT ≠ getOldDeriv b := by
    cases b <;> simp [getOld, getOldDeriv, mX1, mX2, mDxdt1, mDxdt2, mT]
  have hD' : mDt ≠ getOld b ∧ mDt ≠ getOldDeriv b := by
    cases b <;> simp [getOld, getOldDeriv, mX1, mX2, mDxdt1, mDxdt2, mDt]
  exact ⟨_, rfl, e2, fun l h1 h2 h3 _ _ => e3 l h1 h2 h3,
    (e3 _ (dense_not_owned _) hT'.1 hT'.2).2.1.trans ht, (e3 _ (dense_not_owned _) hD'.1 hD'.2).2.1.trans hdt⟩

theorem dopriLoop (P : CtrlParams K V) (sys : Sys K V W) (b : Bool) (x k : V) (t : K) (n c : ℕ)
    (hn : n + c = defaultMaxSteps) (dt : K) (h : Heap K V W) (s : Bool)
    (hb : h.flag mCurX1 = b) (ht : h.num mT = t) (hdt : h.num mDt = dt)
    (hx : h.state (getCurrent b) = x) (hk : h.state (getCurrentDeriv b) = k) :
    LoopPost b h ((fsalDenseBody P dopri5ErrImpl sys (s, c) >>=
        whileM (fun s : Bool × ℕ => !s.1) (fsalDenseBody P dopri5ErrImpl sys)) h)
      (dopri5Trials P sys x k t n dt h.world) := by
  induction n generalizing c dt h s with
  | zero =>
    have hc : c ≥ defaultMaxSteps := by omega
    have hTr := dopriTry P sys b t dt h
    rw [hx, hk] at hTr
    rw [M.bind_apply, fsalDenseBody_apply, hb, ht, hdt]
    unfold dopri5Trials
    cases hT : dopri5Trial P sys x k t dt h.world with
    | ok T w =>
      rw [hT] at hTr
      obtain ⟨h', e1, e2, e3, e4⟩ := hTr
      simp only [e1, hc, if_true]
      cases T <;>
      · refine ⟨_, rfl, e2, afterTry _ _ e3, ?_, ?_⟩ <;> simp [Heap.putNum_num, mT, mDt, Trial.out]
    | err e w =>
      rw [hT] at hTr
      obtain ⟨h', e1, e2, e3⟩ := hTr
      simp only [e1]
      exact threwPost ht hdt e2 e3
    | ub => rw [hT] at hTr; simp only [hTr]; rfl
    | div => rw [hT] at hTr; simp only [hTr]; rfl
  | succ n ih =>
    have hc : ¬ c ≥ defaultMaxSteps := by omega
    have hTr := dopriTry P sys b t dt h
    rw [hx, hk] at hTr
    rw [M.bind_apply, fsalDenseBody_apply, hb, ht, hdt]
    unfold dopri5Trials
    cases hT : dopri5Trial P sys x k t dt h.world with
    | ok T w =>
      rw [hT] at hTr
      obtain ⟨h', e1, e2, e3, e4⟩ := hTr
      simp only [e1, hc, if_false]
      have again : ∀ dt', LoopPost b h
          (whileM (fun s : Bool × ℕ => !s.1) (fsalDenseBody P dopri5ErrImpl sys) (false, c + 1)
            ((h'.putNum mT t).putNum mDt dt')) (dopri5Trials P sys x k t n dt' w) := by
        intro dt'
        have hk₁ : KeepsDense b h ((h'.putNum mT t).putNum mDt dt') := afterTry _ _ e3
        rw [whileM_true (by rfl)]
        have := ih (c + 1) (by omega) dt' ((h'.putNum mT t).putNum mDt dt') false (hk₁.flag.trans hb)
          (by simp [Heap.putNum_num, mT, mDt]) (by simp [Heap.putNum_num]) (hk₁.current.trans hx) (hk₁.deriv.trans hk)
        rw [← e2]
        exact this.trans hk₁
      cases T with
      | limited d => exact again d
      | rejected r e d => exact again d
      | accepted r e d =>
        simp only [Trial.out]
        rw [whileM_false (by rfl)]
        refine ⟨_, _, rfl, e2, afterTry _ _ e3, ?_, ?_, e4 r e d rfl⟩ <;> simp [Heap.putNum_num, mT, mDt]
    | err e w =>
      rw [hT] at hTr
      obtain ⟨h', e1, e2, e3⟩ := hTr
      simp only [e1]
      exact threwPost ht hdt e2 e3
    | ub => rw [hT] at hTr; simp only [hTr]; rfl
    | div => rw [hT] at hTr; simp only [hTr]; rfl

end
end Verif
