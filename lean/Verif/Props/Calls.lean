import Verif.Lemmas.CallsRun
import Verif.Spec.ControlledRun
import Verif.Spec.Multistep

/-!
# C84: how often the right-hand side is evaluated

The system function counts its calls (`Counts`): the outside world is the number of calls so far.  What it returns is arbitrary and may depend on
everything, including the counter.  Nothing is assumed about the memory of the stepper.
-/

set_option linter.unusedSectionVars false

namespace Verif
variable {K V : Type} [Field K] [LinearOrder K] [IsStrictOrderedRing K] [StateOps K V] {sys : Sys K V ℕ}

/-! ## One step -/

/-- **C84, explicit steppers**: `do_step` evaluates the right-hand side once for each stage; if the caller supplies the derivative at the beginning,
one evaluation is saved. -/
theorem do_step_calls (s : ExplicitStepper K) (hs : s.WellFormed) (hc : Counts sys) (x dxdt out : Loc) (t dt : K) :
    TakesCalls s.evaluations (doStep1 s.impl sys x t dt) ∧ TakesCalls (s.evaluations - 1) (doStep2 s.impl sys x dxdt t dt) ∧
    TakesCalls s.evaluations (doStep3 s.impl sys x t out dt) ∧ TakesCalls (s.evaluations - 1) (doStep4 s.impl sys x dxdt t out dt) := by
  have e : 1 + (s.evaluations - 1) = s.evaluations := by cases s <;> simp [ExplicitStepper.evaluations] <;> omega
  exact ⟨(Steady.congr (Steady.bind (takes_sys hc _ _ _) fun _ => s.takes hs hc _ _ _ _ _) e).takes, (s.takes hs hc _ _ _ _ _).takes,
    (Steady.congr (Steady.bind (takes_sys hc _ _ _) fun _ => s.takes hs hc _ _ _ _ _) e).takes, (s.takes hs hc _ _ _ _ _).takes⟩

/-- **C84, steppers with error estimate**: the error estimate costs nothing. -/
theorem do_step_error_calls (s : ErrorStepper K) (hs : s.WellFormed) (hc : Counts sys) (x dxdt out xerr : Loc) (t dt : K) :
    TakesCalls s.evaluations (doStep5 s.errImpl sys x t dt xerr) ∧ TakesCalls (s.evaluations - 1) (doStep6 s.errImpl sys x dxdt t dt xerr) ∧
    TakesCalls s.evaluations (doStep7 s.errImpl sys x t out dt xerr) ∧ TakesCalls (s.evaluations - 1) (doStep8 s.errImpl sys x dxdt t out dt xerr) := by
  have e : 1 + (s.evaluations - 1) = s.evaluations := by cases s <;> simp [ErrorStepper.evaluations] <;> omega
  exact ⟨(Steady.congr (Steady.bind (takes_sys hc _ _ _) fun _ => s.takes hs hc _ _ _ _ _ _) e).takes, (s.takes hs hc _ _ _ _ _ _).takes,
    (Steady.congr (Steady.bind (takes_sys hc _ _ _) fun _ => s.takes hs hc _ _ _ _ _ _) e).takes, (s.takes hs hc _ _ _ _ _ _).takes⟩

theorem fsalPrepare_calls (resized : Bool) (hc : Counts sys) (x : Loc) (t : K) (h : Heap K V ℕ) :
    ∃ h', fsalPrepare resized sys x t h = .ok () h' ∧ h'.world = h.world + (resized || h.flag mFirstCall).toNat ∧ h'.flag mFirstCall = false := by
  obtain ⟨_, h1, e1, w1, -⟩ := takes_sys hc x mDxdt t h
  cases hf : (resized || h.flag mFirstCall) with
  | true =>
    refine ⟨h1.putFlag mFirstCall false, ?_, w1, by simp [Heap.putFlag]⟩
    show (if resized || h.flag mFirstCall then fsalInitialize sys x t else pure ()) h = _
    rw [hf, if_pos rfl]
    exact M.bind_ok e1 _
  | false =>
    refine ⟨h, ?_, rfl, by revert hf; cases h.flag mFirstCall <;> simp⟩
    show (if resized || h.flag mFirstCall then fsalInitialize sys x t else pure ()) h = _
    rw [hf]
    rfl

theorem fsal_calls {resized : Bool} (hc : Counts sys) {x : Loc} {t : K} {p : StepM K V ℕ Unit} (hp : Steady 6 p) (h : Heap K V ℕ) :
    ∃ h', (fsalPrepare resized sys x t >>= fun _ => p) h = .ok () h' ∧ h'.world = h.world + 6 + (resized || h.flag mFirstCall).toNat ∧
      h'.flag mFirstCall = false := by
  obtain ⟨h1, e1, w1, f1⟩ := fsalPrepare_calls resized hc x t h
  obtain ⟨_, h2, e2, w2, f2, -⟩ := hp h1
  exact ⟨h2, by rw [M.bind_ok e1, e2], by rw [w2, w1]; omega, by rw [f2, f1]⟩

/-- **C84, `runge_kutta_dopri5`**: a step needs six evaluations, not seven, because the last stage is the first one of the next step; the first step
after construction, `reset` or a change of the size of the state needs one more. -/
theorem do_step_dopri5_calls (resized : Bool) (hc : Counts sys) (x out xerr : Loc) (t dt : K) (h : Heap K V ℕ) :
    ∀ p ∈ [fsalStep1 dopri5Impl resized sys x t dt, fsalStep3 dopri5Impl resized sys x t out dt, fsalStep5 dopri5ErrImpl resized sys x t dt xerr,
      fsalStep7 dopri5ErrImpl resized sys x t out dt xerr],
    ∃ h', p h = .ok () h' ∧ h'.world = h.world + 6 + (resized || h.flag mFirstCall).toNat ∧ h'.flag mFirstCall = false := by
  intro p hp
  simp only [List.mem_cons, List.not_mem_nil, or_false] at hp
  rcases hp with rfl | rfl | rfl | rfl
  · exact fsal_calls hc (takes_dopri5 hc _ _ _ _ _ _) h
  · exact fsal_calls hc (takes_dopri5 hc _ _ _ _ _ _) h
  · exact fsal_calls hc (takes_dopri5Err hc _ _ _ _ _ _ _) h
  · exact fsal_calls hc (takes_dopri5Err hc _ _ _ _ _ _ _) h

/-- the overloads where the caller supplies the derivative and receives the new one: always six -/
theorem do_step_dopri5_calls_dxdt (hc : Counts sys) (x dxdt out dxdtOut xerr : Loc) (t dt : K) :
    ∀ p ∈ [fsalStep2 dopri5Impl sys x dxdt t dt, fsalStep4 dopri5Impl sys x dxdt t out dxdtOut dt, fsalStep6 dopri5ErrImpl sys x dxdt t dt xerr,
      fsalStep8 dopri5ErrImpl sys x dxdt t out dxdtOut dt xerr], TakesCalls 6 p := by
  intro p hp
  have z : TakesCalls 0 (setFlag mFirstCall true : StepM K V ℕ Unit) := fun _ => ⟨(), _, rfl, rfl⟩
  simp only [List.mem_cons, List.not_mem_nil, or_false] at hp
  rcases hp with rfl | rfl | rfl | rfl
  · exact TakesCalls.bind (c' := 6) z fun _ => (takes_dopri5 hc _ _ _ _ _ _).takes
  · exact TakesCalls.bind (c' := 6) z fun _ => (takes_dopri5 hc _ _ _ _ _ _).takes
  · exact TakesCalls.bind (c' := 6) z fun _ => (takes_dopri5Err hc _ _ _ _ _ _ _).takes
  · exact TakesCalls.bind (c' := 6) z fun _ => (takes_dopri5Err hc _ _ _ _ _ _ _).takes

/-- **C84, `extrapolation_stepper`** with `m_k_max = kmax`: the numbers of intervals are 2, 4, ..., 2 (kmax + 1). -/
theorem do_step_extrapolation_calls {kmax : ℕ} (hk : kmax ≤ 32766) (hc : Counts sys) (x out xerr : Loc) (t dt : K) :
    TakesCalls ((kmax + 1) * (kmax + 2) + 1) (doStep1 (extrapolationImpl kmax) sys x t dt) ∧
    TakesCalls ((kmax + 1) * (kmax + 2) + 1) (doStep3 (extrapolationImpl kmax) sys x t out dt) ∧
    TakesCalls ((kmax + 1) * (kmax + 2) + 1) (doStep5 (extrapolationErrImpl kmax) sys x t dt xerr) ∧
    TakesCalls ((kmax + 1) * (kmax + 2) + 1) (doStep7 (extrapolationErrImpl kmax) sys x t out dt xerr) := by
  have key : ∀ out, Steady ((kmax + 1) * (kmax + 2) + 1) (doStep3 (extrapolationImpl kmax) sys x t out dt) := fun out =>
    Steady.congr (Steady.bind (takes_sys hc _ _ _) fun _ => takes_extrapolation hc hk _ _ _ _ _) (by omega)
  have key2 : ∀ out, Steady ((kmax + 1) * (kmax + 2) + 1) (doStep7 (extrapolationErrImpl kmax) sys x t out dt xerr) := fun out =>
    Steady.congr (Steady.bind (takes_sys hc _ _ _) fun _ => Steady.bind (takes_extrapolation hc hk _ _ _ _ _) fun _ => takes_lin _ _) (by omega)
  exact ⟨(key x).takes, (key out).takes, (key2 x).takes, (key2 out).takes⟩

/-- **C84, `rosenbrock4`**: six evaluations, all overloads; the Jacobian is counted separately (`rosenbrock4_jacobian_calls`). -/
theorem do_step_rosenbrock_calls {Mat : Type} {jac : Jac K V ℕ Mat} (C : RosCoef K) (solve : K → Mat → V → V) (hc : Counts sys)
    (hj : ∀ x t n, ∃ y, jac x t n = .ok y n) (x : Loc) (t : K) (xout : Loc) (dt : K) (xerr : Loc) :
    TakesCalls 6 (rosDoStep6 C solve sys jac x t xout dt xerr) ∧ TakesCalls 6 (rosDoStep5 C solve sys jac x t dt xerr) ∧
    TakesCalls 6 (rosDoStep3 C solve sys jac x t xout dt) ∧ TakesCalls 6 (rosDoStep1 C solve sys jac x t dt) :=
  ⟨(takes_rosenbrock C solve hc hj _ _ _ _ _).takes, (takes_rosenbrock C solve hc hj _ _ _ _ _).takes, (takes_rosenbrock C solve hc hj _ _ _ _ _).takes,
    (takes_rosenbrock C solve hc hj _ _ _ _ _).takes⟩

/-- **C84, Jacobian of `rosenbrock4`**: evaluated exactly once in each step. -/
theorem rosenbrock4_jacobian_calls {Mat : Type} {jac : Jac K V ℕ Mat} (C : RosCoef K) (solve : K → Mat → V → V) (hs : ∀ x t n, ∃ y, sys x t n = .ok y n)
    (hj : ∀ x t n, ∃ y, jac x t n = .ok y (n + 1)) (x : Loc) (t : K) (xout : Loc) (dt : K) (xerr : Loc) :
    TakesCalls 1 (rosDoStep6 C solve sys jac x t xout dt xerr) := by
  have z : ∀ src dst t, Steady 0 (callSys sys src dst t) := by
    intro src dst t h
    obtain ⟨y, e⟩ := hs (h.state src) t h.world
    exact ⟨(), h.put dst y h.world, by rw [callSys, e], rfl, rfl, rfl⟩
  have zj : Steady 1 (callJac jac x rDfdt t) := by
    intro h
    obtain ⟨y, e⟩ := hj (h.state x) t h.world
    exact ⟨y.1, h.put rDfdt y.2 (h.world + 1), by rw [callJac, e], rfl, rfl, rfl⟩
  have : Steady (0 + (1 + (0 + (0 + (0 + (0 + (0 + (0 + (0 + (0 + (0 + (0 + (0 + (0 + (0 + (0 + (0 + (0 + (0 + (0 + (0 + (0 + (0 + (0 + 0))))))))))))))))))))))))
      (rosDoStep6 C solve sys jac x t xout dt xerr) := by
    unfold rosDoStep6
    refine Steady.bind (z _ _ _) fun _ => Steady.bind zj fun _ => ?_
    repeat first
      | exact takes_lin _ _ | exact z _ _ _ | exact takes_solveIn _ _ | (refine Steady.bind ?_ fun _ => ?_)
  exact this.takes

/-- **C84, symplectic steppers**: one evaluation of each of the two functions for each stage. -/
theorem do_step_symplectic_calls {coor mom : V → M ℕ V} (hc : Counts1 coor) (hm : Counts1 mom) (coef : List (K × K)) (qin pin qout pout : Loc) (dt : K) :
    TakesCalls (2 * coef.length) (rknStepPair coef coor mom qin pin qout pout dt) ∧ TakesCalls coef.length (rknStepMom coef mom qin pin qout pout dt) := by
  cases coef with
  | nil => exact ⟨(takes_pure ()).takes, (takes_pure ()).takes⟩
  | cons ab l =>
    refine ⟨(Steady.congr (Steady.bind (takes_fun hc _ _) fun _ => Steady.bind (takes_lin _ _) fun _ => Steady.bind (takes_fun hm _ _) fun _ =>
      Steady.bind (takes_lin _ _) fun _ => takes_rknLoop hc hm _ _ _ l) ?_).takes, (Steady.congr (Steady.bind (takes_lin _ _) fun _ =>
      Steady.bind (takes_fun hm _ _) fun _ => Steady.bind (takes_lin _ _) fun _ => takes_rknMomLoop hm _ _ _ l) ?_).takes⟩ <;>
    simp only [List.length_cons] <;> omega

/-- **C84, `velocity_verlet`**: one evaluation of the acceleration, and one more in the first step. -/
theorem do_step_verlet_calls {sys : Sys2 K V ℕ} (hc : Counts2 sys) (resized : Bool) (q p : Loc) (t dt : K) (h : Heap K V ℕ) :
    ∃ h', verletDoStep resized sys q p t dt h = .ok () h' ∧ h'.world = h.world + 1 + (resized || h.flag mVerletFirst).toNat ∧ h'.flag mVerletFirst = false := by
  have step : ∀ h : Heap K V ℕ, h.flag mVerletFirst = false → ∃ h', (getFlag mCurrentA1 >>= fun b =>
      verletStep sys q p (currentAcc b) q p (oldAcc b) t dt >>= fun _ => setFlag mCurrentA1 (!b)) h = .ok () h' ∧ h'.world = h.world + 1 ∧
      h'.flag mVerletFirst = false := by
    intro h hf
    have sv : Steady (0 + (1 + 0)) (verletStep sys q p (currentAcc (h.flag mCurrentA1)) q p (oldAcc (h.flag mCurrentA1)) t dt) :=
      Steady.bind (takes_lin _ _) fun _ => Steady.bind (takes_sys2 hc _ _ _ _) fun _ => takes_lin _ _
    obtain ⟨_, h1, e1, w1, f1, -⟩ := sv h
    refine ⟨h1.putFlag mCurrentA1 (!h.flag mCurrentA1), ?_, w1, ?_⟩
    · have e0 : (getFlag mCurrentA1 : StepM K V ℕ Bool) h = .ok (h.flag mCurrentA1) h := rfl
      rw [M.bind_ok e0, M.bind_ok e1]
      rfl
    · have hne : mVerletFirst ≠ mCurrentA1 := by decide
      simp [Heap.putFlag, Function.update_of_ne hne, f1, hf]
  have e0 : (getFlag mVerletFirst : StepM K V ℕ Bool) h = .ok (h.flag mVerletFirst) h := rfl
  unfold verletDoStep
  rw [M.bind_ok e0]
  cases hf : (resized || h.flag mVerletFirst) with
  | true =>
    obtain ⟨_, h1, e1, w1, f1, -⟩ := takes_sys2 hc q p (currentAcc (h.flag mCurrentA1)) t h
    obtain ⟨h2, e2, w2, f2⟩ := step (h1.putFlag mVerletFirst false) (by simp [Heap.putFlag])
    refine ⟨h2, ?_, ?_, f2⟩
    · have ei : verletInitialize sys q p t h = .ok () (h1.putFlag mVerletFirst false) := by
        have e0 : (getFlag mCurrentA1 : StepM K V ℕ Bool) h = .ok (h.flag mCurrentA1) h := rfl
        unfold verletInitialize
        rw [M.bind_ok e0, M.bind_ok e1]
        rfl
      rw [if_pos rfl, M.bind_ok ei]
      exact e2
    · rw [w2]
      show h1.world + 1 = _
      rw [w1]
      rfl
  | false =>
    obtain ⟨h2, e2, w2, f2⟩ := step h (by revert hf; cases h.flag mVerletFirst <;> simp)
    exact ⟨h2, by simpa using e2, by rw [w2]; rfl, f2⟩

/-! ## Trials of a controlled stepper -/

theorem tryStep4_calls (P : CtrlParams K V) (s : ErrorStepper K) (hs : s.WellFormed) (hc : Counts sys) (x dxdt out : Loc) (t dt : K) :
    Steady (if P.adjuster.checkStepSizeLimit dt then s.evaluations - 1 else 0) (tryStep4 P s.errImpl sys x dxdt t out dt) := by
  unfold tryStep4
  cases hl : P.adjuster.checkStepSizeLimit dt with
  | false => exact takes_pure _
  | true =>
    simp only [Bool.not_true, Bool.false_eq_true, if_false, if_true]
    exact Steady.bind (s.takes hs hc _ _ _ _ _ _) fun _ => Steady.bind (takes_checker _ _ _ _ _) (c' := 0) fun _ => takes_pure _

/-- **C84, `try_step`** of a controlled stepper over a stepper with error estimate: successful or not, it costs as much as a step; a step that is rejected
because it exceeds the maximal step size costs one evaluation (none, if the caller supplies the derivative). -/
theorem try_step_calls (P : CtrlParams K V) (s : ErrorStepper K) (hs : s.WellFormed) (hc : Counts sys) (x dxdt out : Loc) (t dt : K) :
    TakesCalls (if P.adjuster.checkStepSizeLimit dt then s.evaluations else 1) (tryStep1 P s.errImpl sys x t dt) ∧
    TakesCalls (if P.adjuster.checkStepSizeLimit dt then s.evaluations - 1 else 0) (tryStep2 P s.errImpl sys x dxdt t dt) ∧
    TakesCalls (if P.adjuster.checkStepSizeLimit dt then s.evaluations else 1) (tryStep3 P s.errImpl sys x t out dt) ∧
    TakesCalls (if P.adjuster.checkStepSizeLimit dt then s.evaluations - 1 else 0) (tryStep4 P s.errImpl sys x dxdt t out dt) := by
  have e : 1 + (s.evaluations - 1) = s.evaluations := by cases s <;> simp [ErrorStepper.evaluations] <;> omega
  have e' : 1 + (if P.adjuster.checkStepSizeLimit dt then s.evaluations - 1 else 0) = if P.adjuster.checkStepSizeLimit dt then s.evaluations else 1 := by
    split <;> omega
  have t2 : ∀ x dxdt, Steady (if P.adjuster.checkStepSizeLimit dt then s.evaluations - 1 else 0) (tryStep2 P s.errImpl sys x dxdt t dt) := fun x dxdt =>
    Steady.bind (c' := 0) (tryStep4_calls P s hs hc _ _ _ _ _) fun r => by
      split
      · exact Steady.bind (takes_copy _ _) fun _ => takes_pure _
      · exact takes_pure _
  exact ⟨(Steady.congr (Steady.bind (takes_sys hc _ _ _) fun _ => t2 _ _) e').takes, (t2 _ _).takes,
    (Steady.congr (Steady.bind (takes_sys hc _ _ _) fun _ => tryStep4_calls P s hs hc _ _ _ _ _) e').takes, (tryStep4_calls P s hs hc _ _ _ _ _).takes⟩

theorem tryStep1_limit {P : CtrlParams K V} {s : ErrorStepper K} {x : Loc} {t dt : K} {h h' : Heap K V ℕ} {r : TryOut K}
    (e : tryStep1 P s.errImpl sys x t dt h = .ok r h') (hl : P.adjuster.checkStepSizeLimit dt = false) : r.success = false := by
  obtain ⟨_, h1, -, e⟩ := bind_ok_inv e
  obtain ⟨r', h2, e2, e⟩ := bind_ok_inv e
  unfold tryStep4 at e2
  simp only [hl, Bool.not_false, if_true] at e2
  cases e2
  cases e
  rfl

/-- **C84, `try_step`** of a controlled `runge_kutta_dopri5`: six evaluations for a trial, also for a rejected one, and one more in the first; a trial
that exceeds the maximal step size makes no other. -/
theorem try_step_dopri5_calls (P : CtrlParams K V) (resized : Bool) (hc : Counts sys) (x : Loc) (t dt : K) (h : Heap K V ℕ) :
    ∃ r h', fsalTry1 P dopri5ErrImpl resized sys x t dt h = .ok r h' ∧
      h'.world = h.world + (if P.adjuster.checkStepSizeLimit dt then 6 else 0) + (resized || h.flag mCtrlFirst).toNat ∧
      (P.adjuster.checkStepSizeLimit dt = false → r.success = false) := by
  have z : ∀ l b, TakesCalls 0 (setFlag l b : StepM K V ℕ Unit) := fun l b _ => ⟨(), _, rfl, rfl⟩
  have t4 : TakesCalls (if P.adjuster.checkStepSizeLimit dt then 6 else 0) (fsalTry4 P dopri5ErrImpl sys x mCtrlDxdt t mXnew mDxdtNew dt) := by
    unfold fsalTry4
    cases hl : P.adjuster.checkStepSizeLimit dt with
    | false => exact (takes_pure _).takes
    | true =>
      simp only [Bool.not_true, Bool.false_eq_true, if_false, if_true]
      exact TakesCalls.bind (c := 6) (c' := 0) (TakesCalls.bind (c' := 6) (z _ _) fun _ => (takes_dopri5Err hc _ _ _ _ _ _ _).takes) fun _ =>
        (Steady.bind (takes_checker _ _ _ _ _) fun _ => takes_pure _).takes
  have t3 : ∀ h, ∃ r h', fsalTry3 P dopri5ErrImpl sys x mCtrlDxdt t dt h = .ok r h' ∧
      h'.world = h.world + (if P.adjuster.checkStepSizeLimit dt then 6 else 0) ∧ (P.adjuster.checkStepSizeLimit dt = false → r.success = false) := by
    intro h
    obtain ⟨r, h1, e1, w1⟩ := t4 h
    have hr : P.adjuster.checkStepSizeLimit dt = false → r.success = false := by
      intro hl
      unfold fsalTry4 at e1
      simp only [hl, Bool.not_false, if_true] at e1
      cases e1
      rfl
    unfold fsalTry3
    rw [M.bind_ok e1]
    split
    · exact ⟨r, _, rfl, w1, hr⟩
    · exact ⟨r, _, rfl, w1, hr⟩
  have e0 : (getFlag mCtrlFirst : StepM K V ℕ Bool) h = .ok (h.flag mCtrlFirst) h := rfl
  unfold fsalTry1
  rw [M.bind_ok e0]
  cases hf : (resized || h.flag mCtrlFirst) with
  | true =>
    obtain ⟨_, h1, e1, w1, -⟩ := takes_sys hc x mCtrlDxdt t h
    have ei : fsalCtrlInitialize sys x t h = .ok () (h1.putFlag mCtrlFirst false) := M.bind_ok e1 _
    obtain ⟨r, h2, e2, w2, hr⟩ := t3 (h1.putFlag mCtrlFirst false)
    refine ⟨r, h2, ?_, ?_, hr⟩
    · rw [if_pos rfl, M.bind_ok ei]
      exact e2
    · rw [w2]
      show h1.world + _ = _
      rw [w1, Bool.toNat_true]
      omega
  | false =>
    obtain ⟨r, h2, e2, w2, hr⟩ := t3 h
    exact ⟨r, h2, by simpa using e2, w2, hr⟩

/-! ## Multistep methods -/

/-- `p` takes `c` calls and does not change the number of initialising steps done -/
def KeepsSteps (c : ℕ) (p : StepM K V ℕ α) : Prop := ∀ h, ∃ a h', p h = .ok a h' ∧ h'.world = h.world + c ∧ h'.nat mStepsInit = h.nat mStepsInit

theorem KeepsSteps.bind {α β : Type} {p : StepM K V ℕ α} {f : α → StepM K V ℕ β} {c c' : ℕ} (hp : KeepsSteps c p) (hf : ∀ a, KeepsSteps c' (f a)) :
    KeepsSteps (c + c') (p >>= f) := by
  intro h
  obtain ⟨a, h1, e1, w1, n1⟩ := hp h
  obtain ⟨b, h2, e2, w2, n2⟩ := hf a h1
  exact ⟨b, h2, by rw [M.bind_ok e1, e2], by rw [w2, w1]; omega, by rw [n2, n1]⟩

theorem Steady.keeps {α : Type} {p : StepM K V ℕ α} {c : ℕ} (hp : Steady c p) : KeepsSteps c p := fun h => by
  obtain ⟨a, h', e, w, -, n⟩ := hp h
  exact ⟨a, h', e, w, by rw [n]⟩

theorem takes_bufAt {N : ℕ} (hN : 1 ≤ N) (i : ℕ) : Steady 0 (bufAt N i : StepM K V ℕ Loc) := by
  intro h
  refine ⟨bufData (bufIndex N (h.nat mFirst) i), h, ?_, rfl, rfl, rfl⟩
  have e0 : (getNat mFirst : StepM K V ℕ ℕ) h = .ok (h.nat mFirst) h := rfl
  unfold bufAt
  have hlt : bufIndex N (h.nat mFirst) i < N := Nat.mod_lt _ (by omega)
  rw [M.bind_ok e0, if_neg (by omega), if_pos hlt]
  rfl

theorem keeps_rotate (N : ℕ) : KeepsSteps 0 (bufRotate N : StepM K V ℕ Unit) := by
  intro h
  have e0 : (getNat mFirst : StepM K V ℕ ℕ) h = .ok (h.nat mFirst) h := rfl
  have hne : mStepsInit ≠ mFirst := by decide
  unfold bufRotate
  rw [M.bind_ok e0]
  split
  · exact ⟨(), _, rfl, rfl, by simp [Heap.putNat, Function.update_of_ne hne]⟩
  · exact ⟨(), _, rfl, rfl, by simp [Heap.putNat, Function.update_of_ne hne]⟩

theorem takes_bufRefs {N : ℕ} (hN : 1 ≤ N) (n i : ℕ) : Steady 0 (bufRefs N n i : StepM K V ℕ (List Loc)) := by
  induction n generalizing i with
  | zero => exact takes_pure _
  | succ n ih => exact Steady.bind (takes_bufAt hN i) fun _ => Steady.bind (c' := 0) (ih _) fun _ => takes_pure _

theorem InitStepper.takes (s : InitStepper K) (hs : s.WellFormed) (hc : Counts sys) (inp dxdt out : Loc) (t dt : K) :
    Steady (s.evaluations - 1) (s.impl sys inp dxdt t out dt) ∧ 1 ≤ s.evaluations := by
  cases s with
  | explicit s => exact ⟨s.takes hs hc _ _ _ _ _, by show 1 ≤ s.evaluations; cases s <;> simp [ExplicitStepper.evaluations]⟩
  | extrapolation kmax => exact ⟨takes_extrapolation hc (Nat.lt_succ_iff.mp hs) _ _ _ _ _, by simp [InitStepper.evaluations]⟩

/-- **C84, `adams_bashforth`**: the first `N - 1` steps are steps of the initialising stepper; each further step makes exactly one evaluation, whatever
`N` is.  A change of the size of the state starts again. -/
theorem do_step_adams_bashforth_calls {N : ℕ} (hN : 1 ≤ N) (coef : List K) (init : InitStepper K) (hi : init.WellFormed) (hc : Counts sys) (resized : Bool)
    (inp out : Loc) (t dt : K) (h : Heap K V ℕ) :
    ∃ h', abStep N coef init sys resized inp t out dt h = .ok () h' ∧
      h'.world = h.world + abCost N init (if resized then 0 else h.nat mStepsInit) ∧
      h'.nat mStepsInit = abNext N (if resized then 0 else h.nat mStepsInit) := by
  have key : ∀ h : Heap K V ℕ, ∃ h', (getNat mStepsInit >>= fun c => if c + 1 < N then
      (do
        if c ≠ 0 then bufRotate N
        let s ← bufAt N 0
        callSys sys inp s t
        init.impl sys inp s t out dt
        let c ← getNat mStepsInit
        setNat mStepsInit (c + 1))
      else (do
        bufRotate N
        let s ← bufAt N 0
        callSys sys inp s t
        abCallAlgebra N coef inp out dt)) h = .ok () h' ∧ h'.world = h.world + abCost N init (h.nat mStepsInit) ∧
      h'.nat mStepsInit = abNext N (h.nat mStepsInit) := by
    intro h
    have e0 : (getNat mStepsInit : StepM K V ℕ ℕ) h = .ok (h.nat mStepsInit) h := rfl
    rw [M.bind_ok e0]
    unfold abCost abNext
    by_cases hl : h.nat mStepsInit + 1 < N
    · rw [if_pos hl, if_pos hl, if_pos hl]
      have tail : ∀ h1 : Heap K V ℕ, h1.world = h.world → h1.nat mStepsInit = h.nat mStepsInit → ∃ h', (bufAt N 0 >>= fun s => callSys sys inp s t >>= fun _ =>
          init.impl sys inp s t out dt >>= fun _ => getNat mStepsInit >>= fun c => setNat mStepsInit (c + 1)) h1 = .ok () h' ∧
          h'.world = h.world + init.evaluations ∧ h'.nat mStepsInit = h.nat mStepsInit + 1 := by
        intro h1 w1 n1
        obtain ⟨s, h2, e2, w2, -, n2⟩ := takes_bufAt hN 0 h1
        obtain ⟨_, h3, e3, w3, -, n3⟩ := takes_sys hc inp s t h2
        obtain ⟨hi1, hi2⟩ := init.takes hi hc inp s out t dt
        obtain ⟨_, h4, e4, w4, -, n4⟩ := hi1 h3
        have e5 : (getNat mStepsInit : StepM K V ℕ ℕ) h4 = .ok (h4.nat mStepsInit) h4 := rfl
        refine ⟨h4.putNat mStepsInit (h4.nat mStepsInit + 1), ?_, ?_, ?_⟩
        · rw [M.bind_ok e2, M.bind_ok e3, M.bind_ok e4, M.bind_ok e5]
          rfl
        · show h4.world = _
          omega
        · simp [Heap.putNat, n4, n3, n2, n1]
      by_cases h0 : h.nat mStepsInit ≠ 0
      · rw [if_pos h0]
        obtain ⟨_, h1, e1, w1, n1⟩ := keeps_rotate N h
        obtain ⟨h', e, w, n⟩ := tail h1 w1 n1
        exact ⟨h', by rw [M.bind_ok e1]; exact e, w, n⟩
      · rw [if_neg h0]
        exact tail h rfl rfl
    · rw [if_neg hl, if_neg hl, if_neg hl]
      have prog : KeepsSteps (0 + (0 + (1 + 0))) (bufRotate N >>= fun _ => bufAt N 0 >>= fun s => callSys sys inp s t >>= fun _ =>
          (abCallAlgebra N coef inp out dt : StepM K V ℕ Unit)) :=
        KeepsSteps.bind (keeps_rotate N) fun _ => KeepsSteps.bind (takes_bufAt hN 0).keeps fun _ => KeepsSteps.bind (takes_sys hc _ _ _).keeps fun _ =>
          (Steady.bind (takes_bufRefs hN N 0) fun _ => takes_lin _ _).keeps
      obtain ⟨_, h', e, w, n⟩ := prog h
      exact ⟨h', e, w, n⟩
  unfold abStep
  cases resized with
  | true =>
    have e0 : (setNat mStepsInit 0 : StepM K V ℕ Unit) h = .ok () (h.putNat mStepsInit 0) := rfl
    obtain ⟨h', e, w, n⟩ := key (h.putNat mStepsInit 0)
    have n0 : (h.putNat mStepsInit 0).nat mStepsInit = 0 := by simp [Heap.putNat]
    rw [n0] at w n
    refine ⟨h', ?_, w, n⟩
    rw [if_pos rfl, M.bind_ok e0]
    exact e
  | false =>
    obtain ⟨h', e, w, n⟩ := key h
    exact ⟨h', by simpa using e, w, n⟩

/-- **C84, `adams_bashforth_moulton`**: after the first `N - 1` steps, two evaluations for a step. -/
theorem do_step_adams_bashforth_moulton_calls {N : ℕ} (hN : 1 ≤ N) (cb cm : List K) (init : InitStepper K) (hi : init.WellFormed) (hc : Counts sys) (resized : Bool)
    (inp out : Loc) (t dt : K) (h : Heap K V ℕ) :
    ∃ h', abmStep N cb cm init sys resized inp t out dt h = .ok () h' ∧
      h'.world = h.world + abCost N init (if resized then 0 else h.nat mStepsInit) + (if h.nat mStepsInit + 1 < N then 0 else 1) ∧
      h'.nat mStepsInit = abNext N (if resized then 0 else h.nat mStepsInit) := by
  have e0 : (abIsInitialized N : StepM K V ℕ Bool) h = .ok (decide (N - 1 ≤ h.nat mStepsInit)) h := rfl
  unfold abmStep
  rw [M.bind_ok e0]
  by_cases hl : h.nat mStepsInit + 1 < N
  · rw [decide_eq_false (by omega), if_pos hl]
    obtain ⟨h', e, w, n⟩ := do_step_adams_bashforth_calls hN cb init hi hc resized inp out t dt h
    exact ⟨h', by simpa using e, w, n⟩
  · rw [decide_eq_true (by omega), if_neg hl, if_pos rfl]
    obtain ⟨h1, e1, w1, n1⟩ := do_step_adams_bashforth_calls hN cb init hi hc resized inp abmX t dt h
    have am : Steady (1 + (0 + 0)) (amStep N cm sys inp abmX (t + dt) out dt) :=
      Steady.bind (takes_sys hc _ _ _) fun _ => Steady.bind (takes_bufRefs hN _ _) fun _ => takes_lin _ _
    obtain ⟨_, h2, e2, w2, -, n2⟩ := am h1
    exact ⟨h2, by rw [M.bind_ok e1, e2], by rw [w2, w1], by rw [n2, n1]⟩

/-! ## Integrations -/

section
variable {Q W S T σ : Type} {calls : W → ℕ} {mode : Q → σ} {cost : σ → ℕ} {next : σ → σ} {obs : Observer W S T}

/-- **C84, integrate functions with a plain stepper**: if a step in mode `m` takes `cost m` evaluations, the integrate functions make exactly the
evaluations of the steps they report and no other; the last, shortened step of `integrate_adaptive` is made with the stepper as it was passed, so it
costs as much as a first step.  For all times and step sizes, all kinds of arithmetic and all observers that do not call the system function. -/
theorem integrate_calls (A : TimeArith T) (st : BasicStepper Q W S T) (hst : st.Costs calls mode cost next) (ho : obs.Quiet calls) (q : Q) (x : S)
    (t0 t1 dt : T) (times : List T) (w w' : W) (x' : S) (t' : T) (n : ℕ) :
    (integrateNStepsBasic A st obs q x t0 dt n w = .ok (x', t') w' → calls w' = calls w + totalCost cost next (mode q) n) ∧
    (integrateConstBasic A st obs q x t0 t1 dt w = .ok (x', n) w' → calls w' = calls w + totalCost cost next (mode q) n) ∧
    (integrateAdaptiveBasic A st obs q x t0 t1 dt w = .ok (x', n) w' → calls w' = calls w + totalCost cost next (mode q) n ∨
      ∃ k, n = k + 1 ∧ calls w' = calls w + totalCost cost next (mode q) k + cost (mode q)) ∧
    (integrateTimesBasic A st obs q x times dt w = .ok (x', n) w' → calls w' = calls w + totalCost cost next (mode q) n) := by
  refine ⟨fun e => ?_, const_calls hst ho, adaptive_calls hst ho, timesLoop_calls hst ho _ w dt times ⟨by simp [totalCost], rfl⟩⟩
  obtain ⟨s, w1, e1, e⟩ := bind_ok_inv e
  obtain ⟨_, w2, e2, e⟩ := bind_ok_inv e
  cases e
  rw [ho _ _ _ _ e2, nSteps_calls hst ho _ _ _ _ _ _ _ _ e1]

/-- **C84, integrate functions with a controlled stepper**: each reported step takes at least `lo` evaluations and at most 500 trials, so the number of
evaluations is bounded by the number of steps. -/
theorem integrate_controlled_calls (A : TimeArith T) (st : ControlledStepper Q W S T) {lo hi : ℕ} (hst : st.Takes calls lo hi) (ho : obs.Quiet calls)
    (q : Q) (x : S) (t0 t1 dt : T) (times : List T) (w w' : W) (x' : S) (n : ℕ) (r : AdaptResult S T) :
    (integrateAdaptiveControlled A st obs q x t0 t1 dt w = .ok r w' → calls w + r.count * lo ≤ calls w' ∧ calls w' ≤ calls w + r.count * (500 * hi)) ∧
    (integrateConstControlled A st obs q x t0 t1 dt w = .ok (x', n) w' → calls w + n * lo ≤ calls w' ∧ calls w' ≤ calls w + n * (500 * hi)) ∧
    (integrateTimesControlled A st obs q x times dt w = .ok (x', n) w' → calls w + n * lo ≤ calls w' ∧ calls w' ≤ calls w + (n + 1) * (501 * hi)) :=
  ⟨adaptiveControlled_calls hst ho, constControlled_calls hst ho, timesControlledLoop_calls hst ho w times ⟨by simp, by simp, by simp⟩⟩

end

/-- a stepper object whose `do_step` is known to be successful -/
theorem stepperObject_costs {σ : Type} (doStep : Loc → K → K → StepM K V ℕ Unit) (mode : Heap K V ℕ → σ) (cost : σ → ℕ) (next : σ → σ)
    (hm : ∀ q x n, mode ((q.set (.user 0) x).withWorld n) = mode q)
    (h : ∀ t dt h, ∃ h', doStep (.user 0) t dt h = .ok () h' ∧ h'.world = h.world + cost (mode h) ∧ mode h' = next (mode h)) :
    (stepperObject doStep).Costs (fun w => w.1) mode cost next := by
  intro q x t dt w q' x' w' e
  obtain ⟨h', e1, w1, m1⟩ := h t dt ((q.set (.user 0) x).withWorld w.1)
  simp only [stepperObject, e1] at e
  cases e
  rw [hm] at w1 m1
  exact ⟨w1, m1⟩

/-- the explicit steppers have one mode only -/
theorem explicit_object_costs (s : ExplicitStepper K) (hs : s.WellFormed) (hc : Counts sys) :
    (stepperObject (doStep1 s.impl sys)).Costs (fun w => w.1) (fun _ => ()) (fun _ => s.evaluations) id :=
  stepperObject_costs _ _ _ _ (fun _ _ _ => rfl) fun t dt h => by
    obtain ⟨_, h', e, w⟩ := (do_step_calls s hs hc (.user 0) (.user 1) (.user 2) t dt).1 h
    exact ⟨h', e, w, rfl⟩

/-- `runge_kutta_dopri5` is fresh or not -/
theorem dopri5_object_costs (hc : Counts sys) :
    (stepperObject (fsalStep1 dopri5Impl false sys)).Costs (fun w => w.1) (fun q => q.flag mFirstCall) (fun b => 6 + b.toNat) fun _ => false :=
  stepperObject_costs _ _ _ _ (fun _ _ _ => rfl) fun t dt h => by
    obtain ⟨h', e, w, f⟩ := do_step_dopri5_calls false hc (.user 0) (.user 1) (.user 2) t dt h _ List.mem_cons_self
    exact ⟨h', e, by rw [w, Bool.false_or, add_assoc], f⟩

/-- `adams_bashforth` counts its first steps -/
theorem adams_object_costs {N : ℕ} (hN : 1 ≤ N) (coef : List K) (init : InitStepper K) (hi : init.WellFormed) (hc : Counts sys) :
    (stepperObject fun x t dt => abStep N coef init sys false x t x dt).Costs (fun w => w.1) (fun q => q.nat mStepsInit) (abCost N init) (abNext N) :=
  stepperObject_costs _ _ _ _ (fun _ _ _ => rfl) fun t dt h => do_step_adams_bashforth_calls hN coef init hi hc false (.user 0) (.user 0) t dt h

/-- **C84, explicit steppers in the integrate functions**: `n` reported steps mean `n` times the number of stages, also with `integrate_adaptive`. -/
theorem integrate_explicit_calls (A : TimeArith K) (s : ExplicitStepper K) (hs : s.WellFormed) (hc : Counts sys) {obs : Observer (ℕ × Log V K) V K}
    (ho : obs.Quiet fun w => w.1) (q : Heap K V ℕ) (x : V) (t0 t1 dt : K) (times : List K) (w w' : ℕ × Log V K) (x' : V) (t' : K) (n : ℕ) :
    let st := stepperObject (doStep1 s.impl sys)
    (integrateNStepsBasic A st obs q x t0 dt n w = .ok (x', t') w' → w'.1 = w.1 + n * s.evaluations) ∧
    (integrateConstBasic A st obs q x t0 t1 dt w = .ok (x', n) w' → w'.1 = w.1 + n * s.evaluations) ∧
    (integrateAdaptiveBasic A st obs q x t0 t1 dt w = .ok (x', n) w' → w'.1 = w.1 + n * s.evaluations) ∧
    (integrateTimesBasic A st obs q x times dt w = .ok (x', n) w' → w'.1 = w.1 + n * s.evaluations) := by
  intro st
  obtain ⟨h1, h2, h3, h4⟩ := integrate_calls A st (explicit_object_costs s hs hc) ho q x t0 t1 dt times w w' x' t' n
  have z : ∀ n, totalCost (fun _ : Unit => s.evaluations) id () n = n * s.evaluations := fun n => totalCost_fixed (cost := fun _ : Unit => s.evaluations) rfl n
  simp only [z] at h1 h2 h3 h4
  refine ⟨h1, h2, fun e => ?_, h4⟩
  rcases h3 e with h | ⟨k, rfl, h⟩
  · exact h
  · rw [h]; ring

/-- **C84, `runge_kutta_dopri5` in the integrate functions**: for a stepper that has not been used, `n ≥ 1` steps of `integrate_n_steps`,
`integrate_const` and `integrate_times` take `6 n + 1` evaluations; a shortened last step of `integrate_adaptive` takes one more. -/
theorem integrate_dopri5_calls (A : TimeArith K) (hc : Counts sys) {obs : Observer (ℕ × Log V K) V K}
    (ho : obs.Quiet fun w => w.1) (q : Heap K V ℕ) (hq : q.flag mFirstCall = true) (x : V) (t0 t1 dt : K) (times : List K) (w w' : ℕ × Log V K) (x' : V) (t' : K)
    (n : ℕ) (hn : n ≠ 0) :
    let st := stepperObject (fsalStep1 dopri5Impl false sys)
    (integrateNStepsBasic A st obs q x t0 dt n w = .ok (x', t') w' → w'.1 = w.1 + 6 * n + 1) ∧
    (integrateConstBasic A st obs q x t0 t1 dt w = .ok (x', n) w' → w'.1 = w.1 + 6 * n + 1) ∧
    (integrateAdaptiveBasic A st obs q x t0 t1 dt w = .ok (x', n) w' → w'.1 = w.1 + 6 * n + 1 ∨ (2 ≤ n ∧ w'.1 = w.1 + 6 * n + 2)) ∧
    (integrateTimesBasic A st obs q x times dt w = .ok (x', n) w' → w'.1 = w.1 + 6 * n + 1) := by
  intro st
  obtain ⟨h1, h2, h3, h4⟩ := integrate_calls A st (dopri5_object_costs hc) ho q x t0 t1 dt times w w' x' t' n
  have z : ∀ n, totalCost (fun b : Bool => 6 + b.toNat) (fun _ => false) true (n + 1) = 6 * (n + 1) + 1 := fun n => by
    rw [totalCost, totalCost_fixed (cost := fun b : Bool => 6 + b.toNat) (next := fun _ => false) rfl n]
    simp only [Bool.toNat_true, Bool.toNat_false]
    ring
  obtain ⟨m, rfl⟩ : ∃ m, n = m + 1 := ⟨n - 1, by omega⟩
  simp only [hq] at h1 h2 h3 h4
  refine ⟨fun e => by rw [h1 e, z]; omega, fun e => by rw [h2 e, z]; omega, fun e => ?_, fun e => by rw [h4 e, z]; omega⟩
  rcases h3 e with h | ⟨k, hk, h⟩
  · exact Or.inl (by rw [h, z]; omega)
  · obtain rfl : m = k := by omega
    cases m with
    | zero => exact Or.inl (by rw [h]; simp only [totalCost, Bool.toNat_true])
    | succ m => exact Or.inr ⟨by omega, by rw [h, z, Bool.toNat_true]; omega⟩

/-- **C84, `adams_bashforth` in the integrate functions**: with a stepper that has not been used, the first `N - 1` steps cost what a step of the
initialising stepper costs, and each further step one evaluation. -/
theorem integrate_adams_calls (A : TimeArith K) {N : ℕ} (hN : 1 ≤ N) (coef : List K) (init : InitStepper K) (hi : init.WellFormed) (hc : Counts sys)
    {obs : Observer (ℕ × Log V K) V K} (ho : obs.Quiet fun w => w.1) (q : Heap K V ℕ) (hq : q.nat mStepsInit = 0) (x : V) (t0 t1 dt : K)
    (w w' : ℕ × Log V K) (x' : V) (t' : K) (n : ℕ) :
    let st := stepperObject fun x t dt => abStep N coef init sys false x t x dt
    (integrateNStepsBasic A st obs q x t0 dt n w = .ok (x', t') w' → w'.1 = w.1 + min n (N - 1) * init.evaluations + (n - (N - 1))) ∧
    (integrateConstBasic A st obs q x t0 t1 dt w = .ok (x', n) w' → w'.1 = w.1 + min n (N - 1) * init.evaluations + (n - (N - 1))) := by
  intro st
  obtain ⟨h1, h2, -, -⟩ := integrate_calls A st (adams_object_costs hN coef init hi hc) ho q x t0 t1 dt [] w w' x' t' n
  have z : ∀ n c, c < N → totalCost (abCost N init) (abNext N) c n = min n (N - 1 - c) * init.evaluations + (n - (N - 1 - c)) := by
    intro n
    induction n with
    | zero => intro c _; simp [totalCost]
    | succ n ih =>
      intro c hcN
      rw [totalCost]
      by_cases hl : c + 1 < N
      · rw [abCost, abNext, if_pos hl, if_pos hl, ih _ hl]
        have e1 : min (n + 1) (N - 1 - c) = min n (N - 1 - (c + 1)) + 1 := by omega
        have e2 : n + 1 - (N - 1 - c) = n - (N - 1 - (c + 1)) := by omega
        rw [e1, e2]
        ring
      · rw [abCost, abNext, if_neg hl, if_neg hl, ih _ hcN]
        have e1 : N - 1 - c = 0 := by omega
        rw [e1]
        simp
        ring
  simp only [hq, z n 0 (by omega), Nat.sub_zero, ← add_assoc] at h1 h2
  exact ⟨h1, h2⟩

/-- **C84, controlled steppers**: `integrate_adaptive` with a controlled stepper over a stepper with error estimate: at least as many evaluations as
stages for each reported step, and at most 500 times as many. -/
theorem integrate_adaptive_controlled_calls (A : TimeArith K) (P : CtrlParams K V) (s : ErrorStepper K) (hs : s.WellFormed) (hc : Counts sys)
    {obs : Observer (ℕ × Log V K) V K} (ho : obs.Quiet fun w => w.1) (q : Heap K V ℕ) (x : V) (t0 t1 dt : K) (w w' : ℕ × Log V K) (r : AdaptResult V K)
    (e : integrateAdaptiveControlled A (controlledObject (tryStep1 P s.errImpl sys)) obs q x t0 t1 dt w = .ok r w') :
    w.1 + r.count * s.evaluations ≤ w'.1 ∧ w'.1 ≤ w.1 + r.count * (500 * s.evaluations) := by
  refine (integrate_controlled_calls A _ (calls := fun w : ℕ × Log V K => w.1) (lo := s.evaluations) (hi := s.evaluations) ?_ ho q x t0 t1 dt [] w w' x 0 r).1 e
  intro q x t dt w r w' e
  have hpos : 1 ≤ s.evaluations := by cases s <;> simp [ErrorStepper.evaluations]
  obtain ⟨r', h', e1, w1⟩ := (try_step_calls P s hs hc (.user 0) (.user 1) (.user 2) t dt).1 ((q.set (.user 0) x).withWorld w.1)
  have hr := tryStep1_limit e1
  simp only [controlledObject, e1] at e
  cases e
  have w1 : h'.world = w.1 + _ := w1
  dsimp only
  split at w1
  · omega
  · rename_i hl
    refine ⟨by omega, fun h => ?_, by omega⟩
    rw [hr (by simpa using hl)] at h
    cases h

/-- **C84, controlled `runge_kutta_dopri5`**: between 6 and `500 * 7` evaluations for each reported step. -/
theorem integrate_adaptive_controlled_dopri5_calls (A : TimeArith K) (P : CtrlParams K V) (hc : Counts sys)
    {obs : Observer (ℕ × Log V K) V K} (ho : obs.Quiet fun w => w.1) (q : Heap K V ℕ) (x : V) (t0 t1 dt : K) (w w' : ℕ × Log V K) (r : AdaptResult V K)
    (e : integrateAdaptiveControlled A (controlledObject (fsalTry1 P dopri5ErrImpl false sys)) obs q x t0 t1 dt w = .ok r w') :
    w.1 + r.count * 6 ≤ w'.1 ∧ w'.1 ≤ w.1 + r.count * (500 * 7) := by
  refine (integrate_controlled_calls A _ (calls := fun w : ℕ × Log V K => w.1) (lo := 6) (hi := 7) ?_ ho q x t0 t1 dt [] w w' x 0 r).1 e
  intro q x t dt w r w' e
  obtain ⟨r', h', e1, w1, hr⟩ := try_step_dopri5_calls P false hc (.user 0) t dt ((q.set (.user 0) x).withWorld w.1)
  simp only [controlledObject, e1] at e
  cases e
  have w1 : h'.world = w.1 + _ + _ := w1
  have hb := Bool.toNat_le (false || ((q.set (.user 0) x).withWorld w.1).flag mCtrlFirst)
  dsimp only
  split at w1
  · omega
  · rename_i hl
    refine ⟨by omega, fun h => ?_, by omega⟩
    rw [hr (by simpa using hl)] at h
    cases h

/-! ## The hypotheses can be met -/

/-- a system function that counts: `x' = x + t` over the rational numbers -/
def countingSys : Sys ℚ ℚ ℕ := fun x t n => .ok (x + t) (n + 1)

example : Counts countingSys := fun x t n => ⟨x + t, rfl⟩

/-- the two observers of the tests -/
example : (nullObserver : Observer (ℕ × Log V K) V K).Quiet (fun w => w.1) := quiet_null
example : (recordObserver : Observer (ℕ × Log V K) V K).Quiet (fun w => w.1) := fun _ _ _ _ e => by cases e; rfl

example : (ExplicitStepper.rk4 : ExplicitStepper ℚ).WellFormed ∧ (ErrorStepper.fehlberg : ErrorStepper ℚ).WellFormed ∧
    (InitStepper.extrapolation 3 : InitStepper ℚ).WellFormed := ⟨trivial, trivial, by show 3 < 32767; norm_num⟩

/-- `integrate_n_steps` with `runge_kutta4` returns, for every number of steps, so the hypothesis of `integrate_explicit_calls` can be met. -/
example [StateOps ℚ ℚ] (q : Heap ℚ ℚ ℕ) (x t0 dt : ℚ) (n : ℕ) (w : ℕ × Log ℚ ℚ) :
    ∃ r w', integrateNStepsBasic (TimeArith.exact ℚ 0) (stepperObject (doStep1 ExplicitStepper.rk4.impl countingSys)) recordObserver q x t0 dt n w = .ok r w' := by
  have step : ∀ q x t w, ∃ r w', (stepperObject (doStep1 ExplicitStepper.rk4.impl countingSys)).doStep q x t dt w = .ok r w' := by
    intro q x t w
    obtain ⟨_, h', e, -⟩ := (do_step_calls (V := ℚ) (sys := countingSys) .rk4 trivial (fun x t n => ⟨x + t, rfl⟩) (.user 0) (.user 1) (.user 2) t dt).1
      ((q.set (.user 0) x).withWorld w.1)
    exact ⟨(h', h'.state (.user 0)), (h'.world, w.2), by simp only [stepperObject, e]⟩
  have loop : ∀ k i s w, ∃ s' w', nStepsBasicLoop (TimeArith.exact ℚ 0) (stepperObject (doStep1 ExplicitStepper.rk4.impl countingSys)) recordObserver t0 dt k i s w
      = .ok s' w' := by
    intro k
    induction k with
    | zero => intro i s w; exact ⟨s, w, rfl⟩
    | succ k ih =>
      intro i s w
      obtain ⟨⟨q', x'⟩, w2, e2⟩ := step s.q s.x s.time (w.1, w.2 ++ [.obs s.x s.time])
      have e1 : recordObserver s.x s.time w = .ok () (w.1, w.2 ++ [.obs s.x s.time]) := rfl
      obtain ⟨s', w', e3⟩ := ih (i + 1) ⟨q', x', _⟩ w2
      exact ⟨s', w', by unfold nStepsBasicLoop; rw [M.bind_ok e1, M.bind_ok e2]; exact e3⟩
  obtain ⟨s', w', e⟩ := loop n 0 ⟨q, x, t0⟩ w
  exact ⟨_, _, by unfold integrateNStepsBasic; rw [M.bind_ok e]; rfl⟩

end Verif
