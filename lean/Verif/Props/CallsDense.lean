import Verif.Props.Calls
import Verif.Spec.DenseRun
import Verif.Lemmas.Interval

/-!
# C84 for dense output

`initialize` and `calc_state` are free, `do_step` costs the trials it makes, and the integrate functions make no evaluations besides those of the steps they
report.
-/

set_option linter.unusedSectionVars false

namespace Verif
variable {K V : Type} [Field K] [LinearOrder K] [IsStrictOrderedRing K] [StateOps K V] {sys : Sys K V ℕ}

/-! ## One call -/

/-- **C84, dense output of an explicit stepper**: `do_step` costs as much as a step, interpolation and `initialize` cost nothing. -/
theorem do_step_dense_calls (s : ExplicitStepper K) (hs : s.WellFormed) (hc : Counts sys) (teq : K → K → Bool) (x : Loc) (t dt : K) :
    TakesCalls s.evaluations (denseDoStep s.impl sys) ∧ TakesCalls 0 (denseInit x t dt : StepM K V ℕ Unit) ∧
    TakesCalls 0 (denseCalcState teq t x : StepM K V ℕ Unit) := by
  refine ⟨fun h => ?_, fun h => ⟨_, _, rfl, rfl⟩, fun h => ?_⟩
  · obtain ⟨_, h1, e1, w1⟩ := (do_step_calls s hs hc (getCurrent (h.flag mCurX1)) x (getOld (h.flag mCurX1)) (h.num mT) (h.num mDt)).2.2.1 h
    unfold denseDoStep
    rw [M.bind_ok (m := getFlag mCurX1) (w' := h) (a := h.flag mCurX1) rfl, M.bind_ok (m := getNum mT) (w' := h) (a := h.num mT) rfl,
      M.bind_ok (m := getNum mDt) (w' := h) (a := h.num mDt) rfl, M.bind_ok e1]
    exact ⟨_, _, rfl, w1⟩
  · unfold denseCalcState
    rw [M.bind_ok (m := getFlag mCurX1) (w' := h) (a := h.flag mCurX1) rfl, M.bind_ok (m := getNum mT) (w' := h) (a := h.num mT) rfl]
    by_cases hb : teq t (h.num mT) = true
    · rw [if_pos hb]
      exact ⟨_, _, rfl, rfl⟩
    · rw [if_neg hb]
      exact ⟨_, _, rfl, rfl⟩

/-- one trial -/
theorem fsalTry4_dense_calls (P : CtrlParams K V) (hc : Counts sys) (x dxdt out dxdtOut : Loc) (t dt : K) (h : Heap K V ℕ) :
    ∃ r h', fsalTry4 P dopri5ErrImpl sys x dxdt t out dxdtOut dt h = .ok r h' ∧ (∀ l, l ≠ mFirstCall → h'.flag l = h.flag l) ∧
      (h'.world = h.world + 6 ∨ h'.world = h.world ∧ r.success = false) := by
  unfold fsalTry4
  cases hl : P.adjuster.checkStepSizeLimit dt with
  | false => exact ⟨_, _, rfl, fun _ _ => rfl, .inr ⟨rfl, rfl⟩⟩
  | true =>
    obtain ⟨_, h1, e1, w1, f1, -⟩ := takes_dopri5Err hc x dxdt out dxdtOut t dt mXerr (h.putFlag mFirstCall true)
    obtain ⟨m, h2, e2, w2, f2, -⟩ := takes_checker P x dxdt mXerr dt h1
    refine ⟨decide' P t dt m, h2, ?_, ?_, .inl ?_⟩
    · simp only [Bool.not_true, Bool.false_eq_true, if_false]
      have e0 : fsalStep8 dopri5ErrImpl sys x dxdt t out dxdtOut dt mXerr h = .ok () h1 := e1
      rw [M.bind_ok e0, M.bind_ok e2]
      rfl
    · intro l hne
      rw [f2, f1]
      simp [Heap.putFlag, Function.update_of_ne hne]
    · rw [w2, w1]
      rfl

/-- the body of the loop -/
theorem fsalDenseBody_calls (P : CtrlParams K V) (hc : Counts sys) (s : Bool × ℕ) (h : Heap K V ℕ) :
    ∃ b h', (∀ l, l ≠ mFirstCall → h'.flag l = h.flag l) ∧ (h'.world = h.world + 6 ∨ h'.world = h.world ∧ b = false) ∧
      fsalDenseBody P dopri5ErrImpl sys s h = if 500 ≤ s.2 then .err .stepAdjustment h' else .ok (b, s.2 + 1) h' := by
  obtain ⟨r, h1, e1, f1, w1⟩ := fsalTry4_dense_calls P hc (getCurrent (h.flag mCurX1)) (getCurrentDeriv (h.flag mCurX1)) (getOld (h.flag mCurX1))
    (getOldDeriv (h.flag mCurX1)) (h.num mT) (h.num mDt) h
  refine ⟨r.success, (h1.putNum mT r.t).putNum mDt r.dt, f1, w1, ?_⟩
  unfold fsalDenseBody
  rw [M.bind_ok (m := getFlag mCurX1) (w' := h) (a := h.flag mCurX1) rfl, M.bind_ok (m := getNum mT) (w' := h) (a := h.num mT) rfl,
    M.bind_ok (m := getNum mDt) (w' := h) (a := h.num mDt) rfl, M.bind_ok e1,
    M.bind_ok (m := setNum mT r.t) (w' := h1.putNum mT r.t) (a := ()) rfl,
    M.bind_ok (m := setNum mDt r.dt) (w' := (h1.putNum mT r.t).putNum mDt r.dt) (a := ()) rfl]
  unfold failedStepChecker defaultMaxSteps
  by_cases hm : 500 ≤ s.2
  · rw [if_pos hm, if_pos hm]
    rfl
  · rw [if_neg hm, if_neg hm]
    rfl

/-- The outcome of a loop that may make `n` more trials. -/
def DenseLoopCalls (n : ℕ) (h : Heap K V ℕ) (res : Res (Heap K V ℕ) (Bool × ℕ)) : Prop :=
  (∃ c h' j, res = .ok (true, c) h' ∧ 1 ≤ j ∧ j ≤ n ∧ h'.world = h.world + 6 * j ∧ ∀ l, l ≠ mFirstCall → h'.flag l = h.flag l) ∨
    ∃ h' j, res = .err .stepAdjustment h' ∧ j ≤ n + 1 ∧ h'.world = h.world + 6 * j ∧ ∀ l, l ≠ mFirstCall → h'.flag l = h.flag l

theorem DenseLoopCalls.step {n a : ℕ} {h h1 : Heap K V ℕ} {res : Res (Heap K V ℕ) (Bool × ℕ)} (hr : DenseLoopCalls n h1 res)
    (hw : h1.world = h.world + 6 * a) (ha : a ≤ 1) (hf : ∀ l, l ≠ mFirstCall → h1.flag l = h.flag l) : DenseLoopCalls (n + 1) h res := by
  rcases hr with ⟨c, h', j, rfl, j1, j2, w, f⟩ | ⟨h', j, rfl, j2, w, f⟩
  · exact .inl ⟨c, h', j + a, rfl, by omega, by omega, by omega, fun l hl => (f l hl).trans (hf l hl)⟩
  · exact .inr ⟨h', j + a, rfl, by omega, by omega, fun l hl => (f l hl).trans (hf l hl)⟩

theorem fsalDenseWhile_calls (P : CtrlParams K V) (hc : Counts sys) : ∀ (n c : ℕ) (h : Heap K V ℕ), c + n = 500 →
    DenseLoopCalls n h (whileM (fun s : Bool × ℕ => !s.1) (fsalDenseBody P dopri5ErrImpl sys) (false, c) h) := by
  intro n
  induction n with
  | zero =>
    intro c h hcn
    obtain ⟨b, h', f, w, e⟩ := fsalDenseBody_calls P hc (false, c) h
    rw [if_pos (by show 500 ≤ c; omega)] at e
    rw [whileM_step_err rfl e]
    rcases w with w | ⟨w, -⟩
    · exact .inr ⟨h', 1, rfl, by omega, by omega, f⟩
    · exact .inr ⟨h', 0, rfl, by omega, by omega, f⟩
  | succ n ih =>
    intro c h hcn
    obtain ⟨b, h', f, w, e⟩ := fsalDenseBody_calls P hc (false, c) h
    rw [if_neg (by show ¬ 500 ≤ c; omega)] at e
    rw [whileM_step_ok rfl e]
    cases b with
    | true =>
      rw [whileM_false rfl]
      rcases w with w | ⟨-, w⟩
      · exact .inl ⟨_, h', 1, rfl, le_rfl, by omega, by omega, f⟩
      · cases w
    | false =>
      have := ih (c + 1) h' (by omega)
      rcases w with w | ⟨w, -⟩
      · exact this.step (a := 1) (by omega) le_rfl f
      · exact this.step (a := 0) (by omega) (by omega) f

theorem fsalDenseLoop_eq (P : CtrlParams K V) (impl : FsalErrImpl K V ℕ) (sys : Sys K V ℕ) (h : Heap K V ℕ) :
    fsalDenseLoop P impl sys h = whileM (fun s : Bool × ℕ => !s.1) (fsalDenseBody P impl sys) (false, 0) h := by
  rw [whileM_true rfl]
  rfl

/-- **C84, dense output of `runge_kutta_dopri5`**: `do_step` needs six evaluations for each trial that does not exceed the maximal step size, at least one and at
most 500 of them, and one more in the first step after `initialize`.  If all trials fail, the exception comes after at most 501.  Interpolation and
`initialize` cost nothing. -/
theorem do_step_dense_dopri5_calls (P : CtrlParams K V) (hc : Counts sys) (x : Loc) (t dt : K) (h : Heap K V ℕ) :
    ((∃ r h' j, fsalDenseDoStep P dopri5ErrImpl sys h = .ok r h' ∧ 1 ≤ j ∧ j ≤ 500 ∧ h'.world = h.world + 6 * j + (!h.flag mDerivInit).toNat ∧
        h'.flag mDerivInit = true) ∨
      ∃ h' j, fsalDenseDoStep P dopri5ErrImpl sys h = .err .stepAdjustment h' ∧ j ≤ 501 ∧ h'.world = h.world + 6 * j + (!h.flag mDerivInit).toNat ∧
        h'.flag mDerivInit = true) ∧
    (∃ h', fsalDenseInit x t dt h = .ok () h' ∧ h'.world = h.world ∧ h'.flag mDerivInit = false) ∧
    ∃ h', fsalDenseCalcState t x h = .ok () h' ∧ h'.world = h.world ∧ h'.flag = h.flag := by
  refine ⟨?_, ⟨_, rfl, rfl, by simp [Heap.putFlag, Function.update_self]⟩, ⟨_, rfl, rfl, rfl⟩⟩
  have first : ∃ h1, fsalDenseDeriv sys h = .ok () h1 ∧ h1.world = h.world + (!h.flag mDerivInit).toNat ∧ h1.flag mDerivInit = true := by
    cases hi : h.flag mDerivInit with
    | true =>
      refine ⟨h, ?_, by simp, hi⟩
      unfold fsalDenseDeriv
      rw [M.bind_ok (m := getFlag mDerivInit) (w' := h) (a := h.flag mDerivInit) rfl, hi]
      rfl
    | false =>
      obtain ⟨_, h1, e1, w1, -⟩ := takes_sys hc (getCurrent (h.flag mCurX1)) (getCurrentDeriv (h.flag mCurX1)) (h.num mT) h
      refine ⟨h1.putFlag mDerivInit true, ?_, w1, by simp [Heap.putFlag]⟩
      unfold fsalDenseDeriv
      rw [M.bind_ok (m := getFlag mDerivInit) (w' := h) (a := h.flag mDerivInit) rfl, hi]
      simp only [Bool.not_false, if_true]
      rw [M.bind_ok (m := getFlag mCurX1) (w' := h) (a := h.flag mCurX1) rfl, M.bind_ok (m := getNum mT) (w' := h) (a := h.num mT) rfl, M.bind_ok e1]
      rfl
  obtain ⟨h1, e1, w1, f1⟩ := first
  have hne : mDerivInit ≠ mFirstCall := by decide
  have hne2 : mDerivInit ≠ mCurX1 := by decide
  have loop := fsalDenseWhile_calls P hc 500 0 (h1.putNum mTOld (h1.num mT)) rfl
  rw [← fsalDenseLoop_eq] at loop
  unfold fsalDenseDoStep
  rw [M.bind_ok e1, M.bind_ok (m := getNum mT) (w' := h1) (a := h1.num mT) rfl,
    M.bind_ok (m := setNum mTOld (h1.num mT)) (w' := h1.putNum mTOld (h1.num mT)) (a := ()) rfl]
  rcases loop with ⟨c, h', j, e, j1, j2, w, f⟩ | ⟨h', j, e, j2, w, f⟩
  · refine .inl ⟨_, h'.putFlag mCurX1 (!h'.flag mCurX1), j, by rw [M.bind_ok e]; rfl, j1, j2, ?_, ?_⟩
    · show h'.world = _
      rw [w]
      show h1.world + _ = _
      omega
    · simp only [Heap.putFlag, Function.update_of_ne hne2]
      rw [f _ hne]
      exact f1
  · refine .inr ⟨h', j, by rw [M.bind_apply, e], j2, ?_, ?_⟩
    · rw [w]
      show h1.world + _ = _
      omega
    · rw [f _ hne]
      exact f1

/-! ## Integration -/

section
variable {Q W S T : Type}

/-- The evaluations of a dense output stepper: none for `initialize` and `calc_state`, from `lo` to `hi` for `do_step`. -/
structure DenseStepper.Costs (st : DenseStepper Q W S T) (calls : W → ℕ) (lo hi : ℕ) : Prop where
  init : ∀ q x t dt w q' w', st.init q x t dt w = .ok q' w' → calls w' = calls w
  interp : ∀ q t w x w', st.calcState q t w = .ok x w' → calls w' = calls w
  step : ∀ q w q' w', st.doStep q w = .ok q' w' → calls w + lo ≤ calls w' ∧ calls w' ≤ calls w + hi

/-- between `lo` and `hi` for each of `n` steps -/
def Between (lo hi c n c' : ℕ) : Prop := c + n * lo ≤ c' ∧ c' ≤ c + n * hi

theorem Between.zero (lo hi c : ℕ) : Between lo hi c 0 c := ⟨by omega, by omega⟩

theorem Between.succ {lo hi c n c' c'' : ℕ} (h : Between lo hi c n c') (h' : c' + lo ≤ c'' ∧ c'' ≤ c' + hi) : Between lo hi c (n + 1) c'' := by
  unfold Between at *
  rw [Nat.succ_mul, Nat.succ_mul]
  omega

/-- **C84, integration with dense output**: the integrate functions make no evaluations besides those of the steps they report, for every arithmetic and every
dense output stepper. -/
theorem integrate_dense_calls (A : TimeArith T) (st : DenseStepper Q W S T) {calls : W → ℕ} {lo hi : ℕ} (hst : st.Costs calls lo hi)
    {obs : Observer W S T} (ho : obs.Quiet calls) (q : Q) (x : S) (t0 t1 dt : T) (times : List T) (w w' : W) (x' : S) (n : ℕ) :
    (integrateAdaptiveDense A st obs q x t0 t1 dt w = .ok (x', n) w' → calls w + n * lo ≤ calls w' ∧ calls w' ≤ calls w + n * hi) ∧
    (integrateConstDense A st obs q x t0 t1 dt w = .ok (x', n) w' → calls w + n * lo ≤ calls w' ∧ calls w' ≤ calls w + n * hi) ∧
    (integrateTimesDense A st obs q x times dt w = .ok (x', n) w' → calls w + n * lo ≤ calls w' ∧ calls w' ≤ calls w + n * hi) := by
  refine ⟨fun e => ?_, fun e => ?_, fun e => ?_⟩
  · unfold integrateAdaptiveDense at e
    obtain ⟨q1, w1, e1, e⟩ := bind_ok_inv e
    obtain ⟨⟨q2, k⟩, w2, e2, e⟩ := bind_ok_inv e
    obtain ⟨_, w3, e3, e⟩ := bind_ok_inv e
    cases e
    have h0 : Between lo hi (calls w) 0 (calls w1) := by rw [hst.init _ _ _ _ _ _ _ e1]; exact .zero _ _ _
    have := (whileM_ok_inv₂ (fun (p : Q × ℕ) (v : W) => Between lo hi (calls w) p.2 (calls v)) ?_ h0 e2).1
    · show Between lo hi (calls w) _ (calls _)
      rw [ho _ _ _ _ e3]
      exact this
    · intro p v p' v' hI hc e
      obtain ⟨⟨q3, k3⟩, v1, e4, e⟩ := bind_ok_inv e
      obtain ⟨q4, v2, e5, e⟩ := bind_ok_inv e
      cases e
      have := (whileM_ok_inv₂ (fun (p : Q × ℕ) (v : W) => Between lo hi (calls w) p.2 (calls v)) ?_ hI e4).1
      · show Between lo hi (calls w) _ (calls _)
        rw [hst.init _ _ _ _ _ _ _ e5]
        exact this
      · intro p v p' v' hI hc e
        obtain ⟨_, u1, e6, e⟩ := bind_ok_inv e
        obtain ⟨q5, u2, e7, e⟩ := bind_ok_inv e
        cases e
        have s := hst.step _ _ _ _ e7
        rw [ho _ _ _ _ e6] at s
        exact hI.succ s
  · unfold integrateConstDense at e
    obtain ⟨q1, w1, e1, e⟩ := bind_ok_inv e
    obtain ⟨_, w2, e2, e⟩ := bind_ok_inv e
    obtain ⟨s, w3, e3, e⟩ := bind_ok_inv e
    have h0 : Between lo hi (calls w) 0 (calls w2) := by rw [ho _ _ _ _ e2, hst.init _ _ _ _ _ _ _ e1]; exact .zero _ _ _
    have key := (whileM_ok_inv₂ (fun (s : DenseState Q S T) (v : W) => Between lo hi (calls w) s.real (calls v)) ?_ h0 e3).1
    · split at e
      · obtain ⟨_, w4, e4, e⟩ := bind_ok_inv e
        obtain ⟨_, w5, e5, e⟩ := bind_ok_inv e
        cases e
        show Between lo hi (calls w) _ (calls _)
        rw [ho _ _ _ _ e5, hst.interp _ _ _ _ _ e4]
        exact key
      · cases e
        exact key
    · intro p v p' v' hI hc e
      obtain ⟨s1, v1, e4, e⟩ := bind_ok_inv e
      have h1 := (whileM_ok_inv₂ (fun (s : DenseState Q S T) (v : W) => Between lo hi (calls w) s.real (calls v)) ?_ hI e4).1
      · split at e
        · refine (whileM_ok_inv₂ (fun (s : DenseState Q S T) (v : W) => Between lo hi (calls w) s.real (calls v)) ?_ h1 e).1
          intro p v p' v' hI hc e
          obtain ⟨q5, u2, e7, e⟩ := bind_ok_inv e
          cases e
          exact hI.succ (hst.step _ _ _ _ e7)
        · split at e
          · obtain ⟨q5, u2, e6, e⟩ := bind_ok_inv e
            obtain ⟨q6, u3, e7, e⟩ := bind_ok_inv e
            cases e
            have s := hst.step _ _ _ _ e7
            rw [hst.init _ _ _ _ _ _ _ e6] at s
            exact h1.succ s
          · cases e
            exact h1
      · intro p v p' v' hI hc e
        obtain ⟨_, u1, e6, e⟩ := bind_ok_inv e
        obtain ⟨_, u2, e7, e⟩ := bind_ok_inv e
        cases e
        show Between lo hi (calls w) _ (calls _)
        rw [ho _ _ _ _ e7, hst.interp _ _ _ _ _ e6]
        exact hI
  · cases times with
    | nil =>
      cases e
      exact Between.zero _ _ _
    | cons τ rest =>
      unfold integrateTimesDense at e
      obtain ⟨q1, w1, e1, e⟩ := bind_ok_inv e
      obtain ⟨_, w2, e2, e⟩ := bind_ok_inv e
      obtain ⟨s, w3, e3, e⟩ := bind_ok_inv e
      cases e
      have h0 : Between lo hi (calls w) 0 (calls w2) := by rw [ho _ _ _ _ e2, hst.init _ _ _ _ _ _ _ e1]; exact .zero _ _ _
      refine (whileM_ok_inv₂ (fun (s : DenseTimesState Q S T) (v : W) => Between lo hi (calls w) s.count (calls v)) ?_ h0 e3).1
      intro p v p' v' hI hc e
      unfold denseTimesBody at e
      obtain ⟨s1, v1, e4, e⟩ := bind_ok_inv e
      have h1 := (whileM_ok_inv₂ (fun (s : DenseTimesState Q S T) (v : W) => Between lo hi (calls w) s.count (calls v)) ?_ hI e4).1
      · split at e
        · obtain ⟨q5, u2, e7, e⟩ := bind_ok_inv e
          cases e
          exact h1.succ (hst.step _ _ _ _ e7)
        · split at e
          · obtain ⟨q5, u2, e6, e⟩ := bind_ok_inv e
            obtain ⟨q6, u3, e7, e⟩ := bind_ok_inv e
            cases e
            have s := hst.step _ _ _ _ e7
            rw [hst.init _ _ _ _ _ _ _ e6] at s
            exact h1.succ s
          · cases e
            exact h1
      · intro p v p' v' hI hc e
        obtain ⟨pq, px, prest, pcount⟩ := p
        cases prest with
        | nil => cases e
        | cons τ' rest' =>
          unfold denseTimesObserve at e
          obtain ⟨_, u1, e6, e⟩ := bind_ok_inv e
          obtain ⟨_, u2, e7, e⟩ := bind_ok_inv e
          cases e
          show Between lo hi (calls w) _ (calls _)
          rw [ho _ _ _ _ e7, hst.interp _ _ _ _ _ e6]
          exact hI

end

theorem denseObject_costs (P : CtrlParams K V) (hc : Counts sys) : (denseObject P sys).Costs (fun w : ℕ × Log V K => w.1) 6 (500 * 6 + 1) where
  init q x t dt w q' w' e := by
    obtain ⟨h', e1, w1, -⟩ := (do_step_dense_dopri5_calls P hc (.user 0) t dt ((q.set (.user 0) x).withWorld w.1)).2.1
    simp only [denseObject, e1] at e
    cases e
    exact w1
  interp q t w x w' e := by
    obtain ⟨h', e1, w1, -⟩ := (do_step_dense_dopri5_calls P hc (.user 0) t t (q.withWorld w.1)).2.2
    simp only [denseObject, e1] at e
    cases e
    exact w1
  step q w q' w' e := by
    have hb := Bool.toNat_le (!(q.withWorld w.1).flag mDerivInit)
    rcases (do_step_dense_dopri5_calls P hc (.user 0) 0 0 (q.withWorld w.1)).1 with ⟨r, h', j, e1, j1, j2, w1, -⟩ | ⟨h', j, e1, -⟩
    · simp only [denseObject, e1] at e
      cases e
      have w1 : q'.world = w.1 + _ + _ := w1
      dsimp only
      omega
    · simp only [denseObject, e1] at e
      cases e

/-- **C84, integration with dense output of `runge_kutta_dopri5`**: at least 6 and at most 500 · 6 + 1 evaluations for each reported step. -/
theorem integrate_dense_dopri5_calls (A : TimeArith K) (P : CtrlParams K V) (hc : Counts sys) {obs : Observer (ℕ × Log V K) V K}
    (ho : obs.Quiet fun w => w.1) (q : Heap K V ℕ) (x : V) (t0 t1 dt : K) (times : List K) (w w' : ℕ × Log V K) (x' : V) (n : ℕ) :
    let st := denseObject P sys
    (integrateAdaptiveDense A st obs q x t0 t1 dt w = .ok (x', n) w' → w.1 + n * 6 ≤ w'.1 ∧ w'.1 ≤ w.1 + n * (500 * 6 + 1)) ∧
    (integrateConstDense A st obs q x t0 t1 dt w = .ok (x', n) w' → w.1 + n * 6 ≤ w'.1 ∧ w'.1 ≤ w.1 + n * (500 * 6 + 1)) ∧
    (integrateTimesDense A st obs q x times dt w = .ok (x', n) w' → w.1 + n * 6 ≤ w'.1 ∧ w'.1 ≤ w.1 + n * (500 * 6 + 1)) :=
  integrate_dense_calls A (denseObject P sys) (denseObject_costs P hc) ho q x t0 t1 dt times w w' x' n

/-! ## The hypotheses can be met -/

/-- an error checker that is always satisfied, and no limit for the step size -/
def satisfiedParams : CtrlParams ℚ ℚ where
  checker := ⟨fun _ _ e _ => (e, 0)⟩
  adjuster := ⟨fun dt _ _ => dt, fun dt _ _ => dt, fun _ => true, 0⟩
  gtOne := fun _ => false
  stepperOrder := 5
  errorOrder := 4

/-- `integrate_adaptive` from 0 to 1 with step size 1 makes one step, with seven evaluations. -/
example (q : Heap ℚ ℚ ℕ) (x : ℚ) : ∃ x' w', integrateAdaptiveDense (TimeArith.exact ℚ 0) (denseObject satisfiedParams countingSys) recordObserver q x 0 1 1 (0, []) =
    .ok (x', 1) w' ∧ w'.1 = 7 := by
  have hc : Counts countingSys := fun x t n => ⟨x + t, rfl⟩
  generalize hst : denseObject satisfiedParams countingSys = st
  have hinit : ∀ q x t dt w, ∃ q', st.init q x t dt w = .ok q' w ∧ st.curTime q' = t ∧ st.curDt q' = dt ∧ q'.flag mDerivInit = false := by
    subst hst
    intro q x t dt w
    refine ⟨_, rfl, ?_, ?_, ?_⟩
    · rfl
    · rfl
    · rfl
  have hstep : ∀ q w, ∃ q', st.doStep q w = .ok q' (q'.world, w.2) ∧ st.curTime q' = st.curTime q + st.curDt q ∧ st.curDt q' = st.curDt q ∧
      (q.flag mDerivInit = false → q'.world = w.1 + 7) := by
    subst hst
    intro q w
    have loop : ∀ h : Heap ℚ ℚ ℕ, ∃ h', fsalDenseLoop satisfiedParams dopri5ErrImpl countingSys h = .ok (true, 1) h' ∧ h'.num mT = h.num mT + h.num mDt ∧
        h'.num mDt = h.num mDt ∧ h'.world = h.world + 6 := by
      intro h
      have body : ∃ h', fsalDenseBody satisfiedParams dopri5ErrImpl countingSys (false, 0) h = .ok (true, 1) h' ∧ h'.num mT = h.num mT + h.num mDt ∧
          h'.num mDt = h.num mDt ∧ h'.world = h.world + 6 := by
        cases hb : h.flag mCurX1 <;>
        · unfold fsalDenseBody
          rw [M.bind_ok (m := getFlag mCurX1) (w' := h) (a := h.flag mCurX1) rfl, hb]
          exact ⟨_, rfl, rfl, rfl, rfl⟩
      obtain ⟨h', e, r⟩ := body
      exact ⟨h', by rw [fsalDenseLoop_eq, whileM_step_ok rfl e, whileM_false rfl]; rfl, r⟩
    cases hi : q.flag mDerivInit with
    | true =>
      obtain ⟨h', e, r1, r2, r3⟩ := loop ((q.withWorld w.1).putNum mTOld (q.num mT))
      refine ⟨h'.putFlag mCurX1 (!h'.flag mCurX1), ?_, r1, r2, fun h => nomatch h⟩
      have : fsalDenseDoStep satisfiedParams dopri5ErrImpl countingSys (q.withWorld w.1) = .ok (h'.num mTOld, h'.num mT) (h'.putFlag mCurX1 (!h'.flag mCurX1)) := by
        unfold fsalDenseDoStep fsalDenseDeriv
        rw [M.bind_ok (w' := q.withWorld w.1) (a := ()) (by rw [M.bind_ok (m := getFlag mDerivInit) (w' := q.withWorld w.1) (a := true) (by rw [← hi]; rfl)]; rfl),
          M.bind_ok (m := getNum mT) (w' := q.withWorld w.1) (a := q.num mT) rfl,
          M.bind_ok (m := setNum mTOld (q.num mT)) (w' := (q.withWorld w.1).putNum mTOld (q.num mT)) (a := ()) rfl, M.bind_ok e]
        rfl
      simp only [denseObject, this]
    | false =>
      obtain ⟨_, h1, e1, w1, -⟩ := takes_sys hc (getCurrent (q.flag mCurX1)) (getCurrentDeriv (q.flag mCurX1)) (q.num mT) (q.withWorld w.1)
      have hn : h1.num = q.num := by cases e1; rfl
      obtain ⟨h', e, r1, r2, r3⟩ := loop ((h1.putFlag mDerivInit true).putNum mTOld (h1.num mT))
      refine ⟨h'.putFlag mCurX1 (!h'.flag mCurX1), ?_, ?_, ?_, fun _ => ?_⟩
      · have : fsalDenseDoStep satisfiedParams dopri5ErrImpl countingSys (q.withWorld w.1) = .ok (h'.num mTOld, h'.num mT) (h'.putFlag mCurX1 (!h'.flag mCurX1)) := by
          unfold fsalDenseDoStep fsalDenseDeriv
          rw [M.bind_ok (w' := h1.putFlag mDerivInit true) (a := ()) (by
              rw [M.bind_ok (m := getFlag mDerivInit) (w' := q.withWorld w.1) (a := false) (by rw [← hi]; rfl)]
              simp only [Bool.not_false, if_true]
              rw [M.bind_ok (m := getFlag mCurX1) (w' := q.withWorld w.1) (a := q.flag mCurX1) rfl,
                M.bind_ok (m := getNum mT) (w' := q.withWorld w.1) (a := q.num mT) rfl, M.bind_ok e1]
              rfl),
            M.bind_ok (m := getNum mT) (w' := h1.putFlag mDerivInit true) (a := h1.num mT) rfl,
            M.bind_ok (m := setNum mTOld (h1.num mT)) (w' := (h1.putFlag mDerivInit true).putNum mTOld (h1.num mT)) (a := ()) rfl, M.bind_ok e]
          rfl
        simp only [denseObject, this]
      · show h'.num mT = q.num mT + q.num mDt
        rw [r1, ← hn]
        rfl
      · show h'.num mDt = q.num mDt
        rw [r2, ← hn]
        rfl
      · show h'.world = w.1 + 7
        rw [r3]
        show h1.world + 6 = _
        rw [w1]
        rfl
  obtain ⟨q1, i1, i2, i3, i4⟩ := hinit q x 0 1 (0, [])
  obtain ⟨q2, s1, s2, s3, s4⟩ := hstep q1 (0, [.obs (st.curState q1) (st.curTime q1)])
  obtain ⟨q3, j1, j2, j3, -⟩ := hinit q2 (st.curState q2) (st.curTime q2) ((TimeArith.exact ℚ 0).sub 1 (st.curTime q2)) (q2.world, [.obs (st.curState q1) (st.curTime q1)])
  rw [i2, i3] at s2
  rw [i3] at s3
  have s2 : st.curTime q2 = 1 := by rw [s2]; norm_num
  have o1 : recordObserver (st.curState q1) (st.curTime q1) ((0, []) : ℕ × Log ℚ ℚ) = .ok () (0, [.obs (st.curState q1) (st.curTime q1)]) := rfl
  refine ⟨st.curState q3, (q2.world, [.obs (st.curState q1) (st.curTime q1)] ++ [.obs (st.curState q3) (st.curTime q3)]), ?_, s4 i4⟩
  unfold integrateAdaptiveDense
  rw [M.bind_ok i1, M.bind_ok (a := (q3, 1)) (w' := (q2.world, [.obs (st.curState q1) (st.curTime q1)]))]
  · rfl
  · rw [whileM_step_ok (s' := (q3, 1)) (w' := (q2.world, [.obs (st.curState q1) (st.curTime q1)])), whileM_false]
    · rfl
    · simp only [j2, j3, s2]
      decide +kernel
    · simp only [i2, i3]
      decide +kernel
    · dsimp only
      rw [M.bind_ok (a := (q2, 1)) (w' := (q2.world, [.obs (st.curState q1) (st.curTime q1)]))]
      · dsimp only
        rw [M.bind_ok j1]
        rfl
      · rw [whileM_step_ok (s' := (q2, 1)) (w' := (q2.world, [.obs (st.curState q1) (st.curTime q1)])), whileM_false]
        · rfl
        · simp only [s2, s3]
          decide +kernel
        · simp only [i2, i3]
          decide +kernel
        · dsimp only
          rw [M.bind_ok o1, M.bind_ok s1]
          rfl

end Verif
