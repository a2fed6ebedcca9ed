import Verif.Lemmas.ControlledRk
import Verif.Lemmas.FsalHistory
import Mathlib.Tactic.NormNum
import Mathlib.Algebra.Order.Field.Rat

/-!
# C17: `controlled_runge_kutta` keeps the controlled-stepper contract

All theorems hold for every arithmetic, every state type, every error checker and step adjuster.
-/

set_option linter.unusedSectionVars false

namespace Verif
variable {K V W : Type} [Add K] [Sub K] [Mul K] [Div K] [Neg K] [IntCast K] [StateOps K V]

/-- C17, `try_step( sys , x , t , dt )`: the derivative is evaluated, then the trial is carried out; `x` changes
only on success, the time is advanced only on success, no other object of the user changes, and when the system
function throws nothing has changed. -/
theorem try_step_contract (P : CtrlParams K V) (s : ErrorStepper K) (hs : s.WellFormed) (sys : Sys K V W) (x : ℕ)
    (t dt : K) (h : Heap K V W) :
    Computes ctrlAllOwners h (tryStep1 P s.errImpl sys (.user x) t dt)
      (do let k ← sys (h.state (.user x)) t
          trial P s.errRecipe sys (h.state (.user x)) k t dt)
      (Trial.out t dt) (Trial.inPlace (.user x)) [] := by
  refine Computes.sys mCtrlDxdt_owned rfl fun k w => ?_
  have n1 : Loc.user x ≠ mCtrlDxdt := by simp [mCtrlDxdt]
  have := tryStep2_computes P s.errImpl s.errRecipe sys (.user x) mCtrlDxdt t dt (h.put mCtrlDxdt k w)
    (ownedBy_user _ _) (by simp [mCtrlDxdt, Loc.ownedBy]) (ownedBy_user _ _) (by simp [mCtrlDxdt, mXnew])
    (by simp [mCtrlDxdt, mXerr])
    (errImpl_implements s hs sys _ _ _ _ t dt _ (ownedBy_user _ _) (by simp [mCtrlDxdt, Loc.ownedBy])
      (by simp [mXnew, Loc.ownedBy]) (by simp [mCtrlDxdt, mXnew]))
  rw [Heap.put_state_ne _ _ _ n1] at this
  simp only [Heap.put_state_self] at this
  exact this.mono (by simp)

/-- C17, `try_step( sys , x , dxdt , t , dt )`. -/
theorem try_step_dxdt_contract (P : CtrlParams K V) (s : ErrorStepper K) (hs : s.WellFormed) (sys : Sys K V W)
    (x dxdt : ℕ) (t dt : K) (h : Heap K V W) :
    Computes ctrlAllOwners h (tryStep2 P s.errImpl sys (.user x) (.user dxdt) t dt)
      (trial P s.errRecipe sys (h.state (.user x)) (h.state (.user dxdt)) t dt)
      (Trial.out t dt) (Trial.inPlace (.user x)) [] :=
  (tryStep2_computes P s.errImpl s.errRecipe sys (.user x) (.user dxdt) t dt h
    (ownedBy_user _ _) (ownedBy_user _ _) (ownedBy_user _ _) (by simp [mXnew]) (by simp [mXerr])
    (errImpl_implements s hs sys _ _ _ _ t dt _ (ownedBy_user _ _) (ownedBy_user _ _)
      (by simp [mXnew, Loc.ownedBy]) (by simp [mXnew]))).mono (by simp)

/-- C17, `try_step( sys , in , dxdt , t , out , dt )` with `out` different from `in` and `dxdt`: `in` never changes;
`out` is written whenever a step was computed. -/
theorem try_step_out_dxdt_contract (P : CtrlParams K V) (s : ErrorStepper K) (hs : s.WellFormed) (sys : Sys K V W)
    (inp dxdt out : ℕ) (hio : inp ≠ out) (hdo : dxdt ≠ out) (t dt : K) (h : Heap K V W) :
    Computes ctrlAllOwners h (tryStep4 P s.errImpl sys (.user inp) (.user dxdt) t (.user out) dt)
      (trial P s.errRecipe sys (h.state (.user inp)) (h.state (.user dxdt)) t dt)
      (Trial.out t dt) (Trial.outOfPlace (.user out)) [] :=
  (tryStep4_computes P s.errImpl s.errRecipe sys (.user inp) (.user dxdt) (.user out) t dt h
    (ownedBy_user _ _) (ownedBy_user _ _) (ownedBy_user _ _) (by simpa using hio) (by simpa using hdo)
    (by simp [mXerr]) (by simp [mXerr]) (by simp [mXerr])
    (errImpl_implements s hs sys _ _ _ _ t dt _ (ownedBy_user _ _) (ownedBy_user _ _)
      (ownedBy_user _ _) (by simpa using hdo))).1.mono (by simp)

/-- C17, `try_step( sys , in , t , out , dt )` with `out` different from `in`. -/
theorem try_step_out_contract (P : CtrlParams K V) (s : ErrorStepper K) (hs : s.WellFormed) (sys : Sys K V W)
    (inp out : ℕ) (hio : inp ≠ out) (t dt : K) (h : Heap K V W) :
    Computes ctrlAllOwners h (tryStep3 P s.errImpl sys (.user inp) t (.user out) dt)
      (do let k ← sys (h.state (.user inp)) t
          trial P s.errRecipe sys (h.state (.user inp)) k t dt)
      (Trial.out t dt) (Trial.outOfPlace (.user out)) [] := by
  refine Computes.sys mCtrlDxdt_owned rfl fun k w => ?_
  have n1 : Loc.user inp ≠ mCtrlDxdt := by simp [mCtrlDxdt]
  have := (tryStep4_computes P s.errImpl s.errRecipe sys (.user inp) mCtrlDxdt (.user out) t dt
    (h.put mCtrlDxdt k w)
    (ownedBy_user _ _) (by simp [mCtrlDxdt, Loc.ownedBy]) (ownedBy_user _ _) (by simpa using hio)
    (by simp [mCtrlDxdt]) (by simp [mXerr]) (by simp [mCtrlDxdt, mXerr]) (by simp [mXerr])
    (errImpl_implements s hs sys _ _ _ _ t dt _ (ownedBy_user _ _) (by simp [mCtrlDxdt, Loc.ownedBy])
      (ownedBy_user _ _) (by simp [mCtrlDxdt]))).1
  rw [Heap.put_state_ne _ _ _ n1] at this
  simp only [Heap.put_state_self] at this
  exact this.mono (by simp)

/-- C17 spelled out: whenever `try_step( sys , x , t , dt )` returns, either the step size was over the limit, or
the error stepper computed a step `y` with error estimate `e` from the derivative `k` at `(x,t)`; the call reports
success iff the weighted error is not greater than one; on success `x = y` and `t` advanced by `dt`; otherwise `x`
and `t` are as before. -/
theorem try_step_result (P : CtrlParams K V) (s : ErrorStepper K) (hs : s.WellFormed) (sys : Sys K V W) (x : ℕ)
    (t dt : K) (h h' : Heap K V W) (r : TryOut K)
    (hr : tryStep1 P s.errImpl sys (.user x) t dt h = .ok r h') :
    (∀ n, n ≠ x → h'.state (.user n) = h.state (.user n)) ∧
    ∃ k w, sys (h.state (.user x)) t h.world = .ok k w ∧
      ((P.adjuster.checkStepSizeLimit dt = false ∧ r = ⟨false, t, P.adjuster.maxDt⟩ ∧ h'.world = w ∧
          h'.state (.user x) = h.state (.user x)) ∨
       (P.adjuster.checkStepSizeLimit dt = true ∧
        ∃ y e, s.errRecipe sys (h.state (.user x)) k t dt w = .ok (y, e) h'.world ∧
          let err := (P.checker.error (h.state (.user x)) k e dt).2
          ((P.gtOne err = true ∧ r = ⟨false, t, P.adjuster.decreaseStep dt err P.errorOrder⟩ ∧
              h'.state (.user x) = h.state (.user x)) ∨
           (P.gtOne err = false ∧ r = ⟨true, t + dt, P.adjuster.increaseStep dt err P.stepperOrder⟩ ∧
              h'.state (.user x) = y)))) := by
  have H := try_step_contract P s hs sys x t dt h
  unfold Computes at H
  rw [M.bind_apply] at H
  cases hk : sys (h.state (.user x)) t h.world with
  | err e w => rw [hk] at H; obtain ⟨_, a, _⟩ := H; rw [hr] at a; cases a
  | ub => rw [hk] at H; rw [hr] at H; cases H
  | div => rw [hk] at H; rw [hr] at H; cases H
  | ok k w =>
    rw [hk] at H
    simp only [trial] at H
    by_cases hc : P.adjuster.checkStepSizeLimit dt = false
    · simp only [hc, if_true, M.pure_apply] at H
      obtain ⟨g, a1, a2, a3⟩ := H
      rw [hr] at a1
      simp only [Res.ok.injEq] at a1
      obtain ⟨rfl, rfl⟩ := a1
      refine ⟨fun n _ => (a3 _ (ownedBy_user _ _)).1, k, w, rfl, Or.inl ⟨hc, rfl, a2, (a3 _ (ownedBy_user _ _)).1⟩⟩
    · rw [if_neg hc] at H
      simp only [M.bind_apply] at H
      cases hst : s.errRecipe sys (h.state (.user x)) k t dt w with
      | err e w => rw [hst] at H; obtain ⟨_, a, _⟩ := H; rw [hr] at a; cases a
      | ub => rw [hst] at H; rw [hr] at H; cases H
      | div => rw [hst] at H; rw [hr] at H; cases H
      | ok ye w' =>
        obtain ⟨y, e⟩ := ye
        rw [hst] at H
        simp only at H
        by_cases hg : P.gtOne (P.checker.error (h.state (.user x)) k e dt).2 = true
        · simp only [hg, if_true, M.pure_apply] at H
          obtain ⟨g, a1, a2, a3⟩ := H
          rw [hr] at a1
          simp only [Res.ok.injEq] at a1
          obtain ⟨rfl, rfl⟩ := a1
          refine ⟨fun n _ => (a3 _ (ownedBy_user _ _)).1, k, w, rfl, Or.inr ⟨by simpa using hc, y, e, ?_,
            Or.inl ⟨hg, rfl, (a3 _ (ownedBy_user _ _)).1⟩⟩⟩
          rw [a2, hst]
        · simp only [hg, if_false, M.pure_apply] at H
          obtain ⟨g, a1, a2, a3⟩ := H
          rw [hr] at a1
          simp only [Res.ok.injEq] at a1
          obtain ⟨rfl, rfl⟩ := a1
          refine ⟨fun n hn => ?_, k, w, rfl, Or.inr ⟨by simpa using hc, y, e, ?_,
            Or.inr ⟨by simpa using hg, rfl, ?_⟩⟩⟩
          · rw [(a3 _ (ownedBy_user _ _)).1]
            simp [Trial.inPlace, Heap.set_state_apply, hn]
          · rw [a2, hst]
          · rw [(a3 _ (ownedBy_user _ _)).1]
            simp [Trial.inPlace]

/-- For a system function that does not throw, `try_step` returns. -/
theorem try_step_returns (P : CtrlParams K V) (s : ErrorStepper K) (hs : s.WellFormed) (sys : Sys K V W)
    (htot : ∀ v t w, ∃ v' w', sys v t w = .ok v' w') (x : ℕ) (t dt : K) (h : Heap K V W) :
    ∃ r h', tryStep1 P s.errImpl sys (.user x) t dt h = .ok r h' := by
  have H := try_step_contract P s hs sys x t dt h
  unfold Computes at H
  obtain ⟨k, w, hk⟩ := htot (h.state (.user x)) t h.world
  obtain ⟨r, w', hr⟩ := errRecipe_total s sys htot (h.state (.user x)) k t dt w
  rw [M.bind_apply, hk] at H
  simp only [trial] at H
  by_cases hc : P.adjuster.checkStepSizeLimit dt = false
  · rw [if_pos hc] at H
    obtain ⟨h', a1, -⟩ := H
    exact ⟨_, h', a1⟩
  · rw [if_neg hc, M.bind_apply, hr] at H
    simp only at H
    split_ifs at H
    all_goals
      obtain ⟨h', a1, -⟩ := H
      exact ⟨_, h', a1⟩

/-- A controller for numbers: error test `|e| > 1`, fixed step sizes. -/
def exCtrl : CtrlParams ℚ ℚ where
  gtOne e := decide (1 < e)
  checker := ⟨fun _ _ e _ => (e, |e|)⟩
  adjuster := ⟨fun dt _ _ => dt / 2, fun dt _ _ => dt * 2, fun dt => decide (dt ≤ 10), 10⟩
  stepperOrder := 1
  errorOrder := 1

/-- Euler's method with the error estimate `dt k1 / 2`. -/
def exErrStepper : ErrorStepper ℚ := .generic ⟨[], [1], [0]⟩ [1 / 2]

/-- The three cases of `try_step_result` occur: for `x' = 3`, `x = 1` and `dt = 1/2` the step is accepted, with
`dt = 1` it is rejected, and `dt = 11` is over the limit. -/
example (h : Heap ℚ ℚ ℕ) (hx : h.state (.user 0) = 1) :
    (∃ h', tryStep1 exCtrl exErrStepper.errImpl (fun _ _ => pure 3) (.user 0) 0 (1 / 2) h = .ok ⟨true, 1 / 2, 1⟩ h' ∧
      h'.state (.user 0) = 5 / 2) ∧
    (∃ h', tryStep1 exCtrl exErrStepper.errImpl (fun _ _ => pure 3) (.user 0) 0 1 h = .ok ⟨false, 0, 1 / 2⟩ h' ∧
      h'.state (.user 0) = 1) ∧
    (∃ h', tryStep1 exCtrl exErrStepper.errImpl (fun _ _ => pure 3) (.user 0) 0 11 h = .ok ⟨false, 0, 10⟩ h' ∧
      h'.state (.user 0) = 1) := by
  have wf : exErrStepper.WellFormed := ⟨rfl, rfl, fun i hi => by simp at hi⟩
  refine ⟨?_, ?_, ?_⟩
  · have H := try_step_contract exCtrl exErrStepper wf (fun _ _ => pure 3) 0 0 (1 / 2) h
    unfold Computes at H
    rw [hx] at H
    norm_num [trial, exCtrl, exErrStepper, ErrorStepper.errRecipe, rkErrStep, rkAllStages, rkStages, rkResult,
      Trial.out, Trial.inPlace, M.bind_apply, M.pure_apply, lin, StateOps.lin, lit] at H
    obtain ⟨h', a1, a2, a3⟩ := H
    exact ⟨h', a1, by rw [(a3 (.user 0) (ownedBy_user _ _)).1]; simp⟩
  · have H := try_step_contract exCtrl exErrStepper wf (fun _ _ => pure 3) 0 0 1 h
    unfold Computes at H
    rw [hx] at H
    norm_num [trial, exCtrl, exErrStepper, ErrorStepper.errRecipe, rkErrStep, rkAllStages, rkStages, rkResult,
      Trial.out, Trial.inPlace, M.bind_apply, M.pure_apply, lin, StateOps.lin, lit] at H
    obtain ⟨h', a1, a2, a3⟩ := H
    exact ⟨h', a1, by rw [(a3 (.user 0) (ownedBy_user _ _)).1, hx]⟩
  · have H := try_step_contract exCtrl exErrStepper wf (fun _ _ => pure 3) 0 0 11 h
    unfold Computes at H
    rw [hx] at H
    norm_num [trial, exCtrl, Trial.out, Trial.inPlace, M.bind_apply, M.pure_apply] at H
    obtain ⟨h', a1, a2, a3⟩ := H
    exact ⟨h', a1, by rw [(a3 (.user 0) (ownedBy_user _ _)).1, hx]⟩

/-- C17: the overloads agree.  The in-place and the out-of-place version return the same result, time and step
size, and on success the same state; the versions with a caller-supplied derivative agree with those that evaluate
it. -/
theorem try_step_overloads_agree (P : CtrlParams K V) (s : ErrorStepper K) (hs : s.WellFormed) (sys : Sys K V W)
    (x out dxdt : ℕ) (hxo : x ≠ out) (hdo : dxdt ≠ out) (t dt : K) (h h₀ : Heap K V W)
    (hst : h₀.state (.user x) = h.state (.user x))
    (hk : sys (h.state (.user x)) t h.world = .ok (h₀.state (.user dxdt)) h₀.world)
    (r : TryOut K) (h1 : Heap K V W) (hr : tryStep1 P s.errImpl sys (.user x) t dt h = .ok r h1) :
    (∃ h3, tryStep3 P s.errImpl sys (.user x) t (.user out) dt h = .ok r h3 ∧ h3.world = h1.world ∧
      (r.success = true → h3.state (.user out) = h1.state (.user x))) ∧
    (∃ h2, tryStep2 P s.errImpl sys (.user x) (.user dxdt) t dt h₀ = .ok r h2 ∧ h2.world = h1.world ∧
      h2.state (.user x) = h1.state (.user x)) ∧
    (∃ h4, tryStep4 P s.errImpl sys (.user x) (.user dxdt) t (.user out) dt h₀ = .ok r h4 ∧ h4.world = h1.world ∧
      (r.success = true → h4.state (.user out) = h1.state (.user x))) := by
  have c1 := try_step_contract P s hs sys x t dt h
  have c2 := try_step_dxdt_contract P s hs sys x dxdt t dt h₀
  have c3 := try_step_out_contract P s hs sys x out hxo t dt h
  have c4 := try_step_out_dxdt_contract P s hs sys x dxdt out hxo hdo t dt h₀
  unfold Computes at c1 c2 c3 c4
  rw [M.bind_apply, hk] at c1 c3
  rw [hst] at c2 c4
  simp only at c1 c2 c3 c4
  cases hT : trial P s.errRecipe sys (h.state (.user x)) (h₀.state (.user dxdt)) t dt h₀.world with
  | err e w => rw [hT] at c1; obtain ⟨_, a, _⟩ := c1; rw [hr] at a; cases a
  | ub => rw [hT] at c1; rw [hr] at c1; cases c1
  | div => rw [hT] at c1; rw [hr] at c1; cases c1
  | ok tr w =>
    rw [hT] at c1 c2 c3 c4
    obtain ⟨g1, a1, a2, a3⟩ := c1
    obtain ⟨g2, b1, b2, b3⟩ := c2
    obtain ⟨g3, d1, d2, d3⟩ := c3
    obtain ⟨g4, f1, f2, f3⟩ := c4
    rw [hr] at a1
    simp only [Res.ok.injEq] at a1
    obtain ⟨rfl, rfl⟩ := a1
    refine ⟨⟨g3, d1, by rw [d2, a2], fun hsuc => ?_⟩, ⟨g2, b1, by rw [b2, a2], ?_⟩,
      ⟨g4, f1, by rw [f2, a2], fun hsuc => ?_⟩⟩
    · rw [(d3 _ (ownedBy_user _ _)).1, (a3 _ (ownedBy_user _ _)).1]
      cases tr <;> simp_all [Trial.out, Trial.inPlace, Trial.outOfPlace]
    · rw [(b3 _ (ownedBy_user _ _)).1, (a3 _ (ownedBy_user _ _)).1]
      cases tr <;> simp [Trial.inPlace, hst]
    · rw [(f3 _ (ownedBy_user _ _)).1, (a3 _ (ownedBy_user _ _)).1]
      cases tr <;> simp_all [Trial.out, Trial.inPlace, Trial.outOfPlace]

/-! ## FSAL -/

/-- C17, FSAL `try_step( sys , x , dxdt , t , dt )`: on success `dxdt` becomes the derivative at the new state, on
fail both stay as they were; likewise when the system function throws. -/
theorem fsal_try_step_contract (P : CtrlParams K V) (sys : Sys K V W) (x dxdt : ℕ) (t dt : K) (h : Heap K V W) :
    Computes ctrlOwners h (fsalTry3 P dopri5ErrImpl sys (.user x) (.user dxdt) t dt)
      (fsalTrial P dopri5ErrStep sys (h.state (.user x)) (h.state (.user dxdt)) t dt)
      (Trial.out t dt) (Trial.inPlaceFsal (.user x) (.user dxdt)) [] :=
  fsalTry3_computes P dopri5ErrImpl dopri5ErrStep sys _ _ t dt h (ownedBy_user _ _) (ownedBy_user _ _)
    (fsalErr_val sys _ _ _ _ t dt h (ownedBy_user _ _) (ownedBy_user _ _) (by simp [mXnew, Loc.ownedBy])
      (by simp [mDxdtNew, Loc.ownedBy]) (by simp [mXnew, mDxdtNew]) (by simp [mXnew]))

/-- C17, FSAL `try_step( sys , in , dxdt_in , t , out , dxdt_out , dt )` for four different objects. -/
theorem fsal_try_step_out_contract (P : CtrlParams K V) (sys : Sys K V W) (inp dxdt out dxdtOut : ℕ)
    (h1 : inp ≠ out) (h2 : inp ≠ dxdtOut) (h3 : dxdt ≠ out) (h4 : dxdt ≠ dxdtOut) (h5 : out ≠ dxdtOut)
    (t dt : K) (h : Heap K V W) :
    Computes ctrlOwners h (fsalTry4 P dopri5ErrImpl sys (.user inp) (.user dxdt) t (.user out) (.user dxdtOut) dt)
      (fsalTrial P dopri5ErrStep sys (h.state (.user inp)) (h.state (.user dxdt)) t dt)
      (Trial.out t dt) (Trial.outOfPlaceFsal (.user out) (.user dxdtOut)) [.user out, .user dxdtOut] :=
  (fsalTry4_computes P dopri5ErrImpl dopri5ErrStep sys _ _ _ _ t dt h (ownedBy_user _ _) (ownedBy_user _ _)
    (ownedBy_user _ _) (ownedBy_user _ _) (by simpa using h1) (by simpa using h2) (by simpa using h3)
    (by simpa using h4) (by simpa using h5) (by simp [mXerr]) (by simp [mXerr])
    (fsalErr_val sys _ _ _ _ t dt h (ownedBy_user _ _) (ownedBy_user _ _) (ownedBy_user _ _)
      (ownedBy_user _ _) (by simpa using h5) (by simpa using h3))).1

/-- The derivative stored on success is the right-hand side at the new state and time `t + dt`: it is the value of
the last evaluation of the accepted Dormand-Prince step. -/
theorem fsal_trial_derivative (P : CtrlParams K V) (f : V → K → V) (x k : V) (t dt : K) (w w' : ℕ)
    (y k' : V) (err dt' : K)
    (ht : fsalTrial P dopri5ErrStep (countSys f) x k t dt w = .ok (.accepted (y, k') err dt') w') :
    k' = f y (t + dt) := by
  obtain ⟨r, hr, hk⟩ := dopri5_val f x k t dt
  unfold fsalTrial at ht
  split at ht
  · cases ht
  · simp only [dopri5ErrStep, M.bind_apply, hr] at ht
    change (if P.gtOne (P.checker.error x k (dopri5Error k dt r) dt).2 = true then _ else _ : M ℕ (Trial K (V × V))) _ = _ at ht
    split at ht
    · cases ht
    · cases ht
      exact hk

end Verif
