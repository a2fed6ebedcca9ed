import Verif.Lemmas.IntervalObjects
import Verif.Props.StepAdjust

/-!
# C83: the right-hand side is evaluated only at times of the integration

`UsesOnly I call` says that the call makes no use of the system function at times outside of `I`, so the system function may do there whatever it
likes.  One step uses it only between `t` and `t + dt`, whatever the sign of `dt`; the integrate functions use it only between start and end.
Everything holds for every ordered field (exact arithmetic), every state type with linear combinations, every observer and every state of the stepper.
-/

set_option linter.unusedSectionVars false

namespace Verif
variable {K V W Q S W' : Type} [Field K] [LinearOrder K] [IsStrictOrderedRing K] [StateOps K V]

/-! ## One step -/

/-- **C83, explicit steppers**: the four overloads of `do_step` use the system function only between `t` and `t + dt`. -/
theorem do_step_inside (s : ExplicitStepper K) (hs : s.Inside) (x dxdt out : Loc) (t dt : K) :
    UsesOnly (duringStep t dt) (fun sys : Sys K V W => doStep1 s.impl sys x t dt) ∧
    UsesOnly (duringStep t dt) (fun sys : Sys K V W => doStep2 s.impl sys x dxdt t dt) ∧
    UsesOnly (duringStep t dt) (fun sys : Sys K V W => doStep3 s.impl sys x t out dt) ∧
    UsesOnly (duringStep t dt) (fun sys : Sys K V W => doStep4 s.impl sys x dxdt t out dt) := by
  refine ⟨?_, ?_, ?_, ?_⟩ <;> intro sys sys' h
  · simp only [doStep1, callSys_agree h (start_mem t dt), s.impl_agree hs h]
  · simp only [doStep2, s.impl_agree hs h]
  · simp only [doStep3, callSys_agree h (start_mem t dt), s.impl_agree hs h]
  · simp only [doStep4, s.impl_agree hs h]

/-- **C83, steppers with error estimate**: the four overloads with the additional argument. -/
theorem do_step_error_inside (s : ErrorStepper K) (hs : s.Inside) (x dxdt out xerr : Loc) (t dt : K) :
    UsesOnly (duringStep t dt) (fun sys : Sys K V W => doStep5 s.errImpl sys x t dt xerr) ∧
    UsesOnly (duringStep t dt) (fun sys : Sys K V W => doStep6 s.errImpl sys x dxdt t dt xerr) ∧
    UsesOnly (duringStep t dt) (fun sys : Sys K V W => doStep7 s.errImpl sys x t out dt xerr) ∧
    UsesOnly (duringStep t dt) (fun sys : Sys K V W => doStep8 s.errImpl sys x dxdt t out dt xerr) := by
  refine ⟨?_, ?_, ?_, ?_⟩ <;> intro sys sys' h
  · simp only [doStep5, callSys_agree h (start_mem t dt), s.errImpl_agree hs h]
  · simp only [doStep6, s.errImpl_agree hs h]
  · simp only [doStep7, callSys_agree h (start_mem t dt), s.errImpl_agree hs h]
  · simp only [doStep8, s.errImpl_agree hs h]

/-- **C83, `runge_kutta_dopri5`**: all overloads, for every state of the cached derivative. -/
theorem do_step_dopri5_inside (resized : Bool) (x dxdt out dxdtOut xerr : Loc) (t dt : K) :
    UsesOnly (duringStep t dt) (fun sys : Sys K V W => fsalStep1 dopri5Impl resized sys x t dt) ∧
    UsesOnly (duringStep t dt) (fun sys : Sys K V W => fsalStep2 dopri5Impl sys x dxdt t dt) ∧
    UsesOnly (duringStep t dt) (fun sys : Sys K V W => fsalStep3 dopri5Impl resized sys x t out dt) ∧
    UsesOnly (duringStep t dt) (fun sys : Sys K V W => fsalStep4 dopri5Impl sys x dxdt t out dxdtOut dt) ∧
    UsesOnly (duringStep t dt) (fun sys : Sys K V W => fsalStep5 dopri5ErrImpl resized sys x t dt xerr) ∧
    UsesOnly (duringStep t dt) (fun sys : Sys K V W => fsalStep6 dopri5ErrImpl sys x dxdt t dt xerr) ∧
    UsesOnly (duringStep t dt) (fun sys : Sys K V W => fsalStep7 dopri5ErrImpl resized sys x t out dt xerr) ∧
    UsesOnly (duringStep t dt) (fun sys : Sys K V W => fsalStep8 dopri5ErrImpl sys x dxdt t out dxdtOut dt xerr) := by
  refine ⟨?_, ?_, ?_, ?_, ?_, ?_, ?_, ?_⟩ <;> intro sys sys' h
  · simp only [fsalStep1, fsalPrepare, fsalInitialize, callSys_agree h (start_mem t dt), dopri5Impl_agree h]
  · simp only [fsalStep2, dopri5Impl_agree h]
  · simp only [fsalStep3, fsalPrepare, fsalInitialize, callSys_agree h (start_mem t dt), dopri5Impl_agree h]
  · simp only [fsalStep4, dopri5Impl_agree h]
  · simp only [fsalStep5, fsalPrepare, fsalInitialize, callSys_agree h (start_mem t dt), dopri5ErrImpl_agree h]
  · simp only [fsalStep6, dopri5ErrImpl_agree h]
  · simp only [fsalStep7, fsalPrepare, fsalInitialize, callSys_agree h (start_mem t dt), dopri5ErrImpl_agree h]
  · simp only [fsalStep8, dopri5ErrImpl_agree h]

/-- **C83, `extrapolation_stepper`** (order `2 * kmax + 2`; the bound is the range of the counter of intervals). -/
theorem do_step_extrapolation_inside (kmax : ℕ) (hk : kmax < 32000) (x dxdt out xerr : Loc) (t dt : K) :
    UsesOnly (duringStep t dt) (fun sys : Sys K V W => doStep1 (extrapolationImpl kmax) sys x t dt) ∧
    UsesOnly (duringStep t dt) (fun sys : Sys K V W => doStep3 (extrapolationImpl kmax) sys x t out dt) ∧
    UsesOnly (duringStep t dt) (fun sys : Sys K V W => doStep7 (extrapolationErrImpl kmax) sys x t out dt xerr) ∧
    UsesOnly (duringStep t dt) (fun sys : Sys K V W => extrapolationIo kmax sys x dxdt t dt) := by
  refine ⟨?_, ?_, ?_, ?_⟩ <;> intro sys sys' h
  · simp only [doStep1, callSys_agree h (start_mem t dt), extrapolationImpl_agree h hk]
  · simp only [doStep3, callSys_agree h (start_mem t dt), extrapolationImpl_agree h hk]
  · simp only [doStep7, extrapolationErrImpl, callSys_agree h (start_mem t dt), extrapolationImpl_agree h hk]
  · simp only [extrapolationIo, extrapolationImpl_agree h hk]

/-- **C83, `adams_bashforth` and `adams_bashforth_moulton`**, in every state of the memory of former derivatives. -/
theorem do_step_adams_inside (N : ℕ) (cb cm : List K) (s : InitStepper K) (hs : s.Inside) (resized : Bool) (x out : Loc) (t dt : K) :
    UsesOnly (duringStep t dt) (fun sys : Sys K V W => abStep N cb s sys resized x t out dt) ∧
    UsesOnly (duringStep t dt) (fun sys : Sys K V W => abmStep N cb cm s sys resized x t out dt) :=
  ⟨fun _ _ h => abStep_agree N cb s hs h resized x out, fun _ _ h => abmStep_agree N cb cm s hs h resized x out⟩

/-- **C83, `rosenbrock4`**: moreover, the Jacobian is evaluated only at the beginning of the step. -/
theorem do_step_rosenbrock_inside {Mat : Type} (solve : K → Mat → V → V) (x out xerr : Loc) (t dt : K) :
    (∀ jac : Jac K V W Mat, UsesOnly (duringStep t dt) (fun sys : Sys K V W => rosDoStep6 defaultRosenbrock solve sys jac x t out dt xerr)) ∧
    (∀ (sys : Sys K V W) (jac jac' : Jac K V W Mat), (∀ x, jac x t = jac' x t) →
      rosDoStep6 defaultRosenbrock solve sys jac x t out dt xerr = rosDoStep6 defaultRosenbrock solve sys jac' x t out dt xerr) :=
  ⟨fun _ _ _ h => rosDoStep6_agree solve h (fun _ => rfl) x out xerr, fun _ _ _ h => rosDoStep6_agree solve (fun _ _ _ => rfl) h x out xerr⟩

/-- **C83, `bulirsch_stoer`**: the overloads of `try_step`, in every state of the stepper. -/
theorem try_step_bulirsch_stoer_inside (P : BsParams K V) (resized : Bool) (x dxdt out : Loc) (t dt : K) :
    UsesOnly (duringStep t dt) (fun sys : Sys K V W => bsTry1 P resized sys x t dt) ∧
    UsesOnly (duringStep t dt) (fun sys : Sys K V W => bsTry2 P resized sys x dxdt t dt) ∧
    UsesOnly (duringStep t dt) (fun sys : Sys K V W => bsTry3 P resized sys x t out dt) ∧
    UsesOnly (duringStep t dt) (fun sys : Sys K V W => bsTry4 P resized sys x dxdt t out dt) := by
  refine ⟨?_, ?_, ?_, ?_⟩ <;> intro sys sys' h
  · simp only [bsTry1, bsTry2, callSys_agree h (start_mem t dt), bsTry4_agree P resized h]
  · simp only [bsTry2, bsTry4_agree P resized h]
  · simp only [bsTry3, callSys_agree h (start_mem t dt), bsTry4_agree P resized h]
  · exact bsTry4_agree P resized h _ _ _

/-- **C83, `velocity_verlet`**: the acceleration is evaluated only at the beginning and at the end of the step. -/
theorem do_step_verlet_inside (resized : Bool) (sys sys' : Sys2 K V W) (q p : Loc) (t dt : K)
    (h : ∀ τ ∈ ({t, t + dt} : Set K), ∀ a b, sys a b τ = sys' a b τ) : verletDoStep resized sys q p t dt = verletDoStep resized sys' q p t dt := by
  have h1 : ∀ a b c, callSys2 sys a b c t = callSys2 sys' a b c t := by
    intro a b c; funext w; simp only [callSys2, h t (by simp)]
  have h2 : ∀ a b c, callSys2 sys a b c (t + dt) = callSys2 sys' a b c (t + dt) := by
    intro a b c; funext w; simp only [callSys2, h (t + dt) (by simp)]
  simp only [verletDoStep, verletStep, verletInitialize, h1, h2]

/-- **C83, `implicit_euler`**: system function and Jacobian are evaluated only at the end of the step. -/
theorem do_step_implicit_euler_inside {n : ℕ} {Pm : Type} (L : Lu K n Pm) (large : (Fin n → K) → Bool) (jac jac' : IeJac K W n) (t dt : K)
    (hj : ∀ x, jac x (t + dt) = jac' x (t + dt)) (sys sys' : Sys K (Fin n → K) W) (h : ∀ x, sys x (t + dt) = sys' x (t + dt)) :
    ieDoStep L large sys jac t dt = ieDoStep L large sys' jac' t dt := by
  have e : ∀ x, ieBody L sys x t dt = ieBody L sys' x t dt := by
    intro x; funext o; cases o <;> simp only [ieBody, h]
  funext s
  simp only [ieDoStep, ieStep, ieFirst, h, hj, e]

/-- **C83, `controlled_runge_kutta`**: the overloads of `try_step`, with every error checker and step adjuster. -/
theorem try_step_inside (P : CtrlParams K V) (s : ErrorStepper K) (hs : s.Inside) (resized : Bool) (x dxdt out dxdtOut : Loc) (t dt : K) :
    UsesOnly (duringStep t dt) (fun sys : Sys K V W => tryStep1 P s.errImpl sys x t dt) ∧
    UsesOnly (duringStep t dt) (fun sys : Sys K V W => tryStep2 P s.errImpl sys x dxdt t dt) ∧
    UsesOnly (duringStep t dt) (fun sys : Sys K V W => tryStep3 P s.errImpl sys x t out dt) ∧
    UsesOnly (duringStep t dt) (fun sys : Sys K V W => tryStep4 P s.errImpl sys x dxdt t out dt) ∧
    UsesOnly (duringStep t dt) (fun sys : Sys K V W => fsalTry1 P dopri5ErrImpl resized sys x t dt) ∧
    UsesOnly (duringStep t dt) (fun sys : Sys K V W => fsalTry3 P dopri5ErrImpl sys x dxdt t dt) ∧
    UsesOnly (duringStep t dt) (fun sys : Sys K V W => fsalTry4 P dopri5ErrImpl sys x dxdt t out dxdtOut dt) := by
  refine ⟨?_, ?_, ?_, ?_, ?_, ?_, ?_⟩ <;> intro sys sys' h
  · exact tryStep1_agree P s hs h x
  · simp only [tryStep2, tryStep4_agree P s hs h]
  · simp only [tryStep3, callSys_agree h (start_mem t dt), tryStep4_agree P s hs h]
  · exact tryStep4_agree P s hs h _ _ _
  · exact fsalTry1_agree P resized h x
  · simp only [fsalTry3, fsalTry4_agree P h]
  · exact fsalTry4_agree P h _ _ _ _

/-! ## Integration -/

/-- **C83, integrate functions with a plain stepper**: if one step of the stepper `st` uses the system function only between `t` and `t + dt`, then
`integrate_n_steps` uses it only between `t0` and `t0 + n dt`, `integrate_const` and `integrate_adaptive` only between `t0` and `t1` (which may be
exceeded by the tolerance `eps` in the comparison of times), and `integrate_times` only between the requested times. -/
theorem integrate_inside (st : Sys K V W → BasicStepper Q W' S K)
    (hst : ∀ q x t dt, UsesOnly (duringStep t dt) (fun sys => (st sys).doStep q x t dt))
    (obs : Observer W' S K) (eps : K) (heps : 0 ≤ eps) (q : Q) (x : S) (t0 t1 dt : K) (n : ℕ) (times : List K) :
    UsesOnly (Set.uIcc t0 (t0 + n * dt)) (fun sys => integrateNStepsBasic (TimeArith.exact K eps) (st sys) obs q x t0 dt n) ∧
    UsesOnly (during eps dt t0 t1) (fun sys => integrateConstBasic (TimeArith.exact K eps) (st sys) obs q x t0 t1 dt) ∧
    UsesOnly (during eps dt t0 t1) (fun sys => integrateAdaptiveBasic (TimeArith.exact K eps) (st sys) obs q x t0 t1 dt) ∧
    UsesOnly (duringTimes times) (fun sys => integrateTimesBasic (TimeArith.exact K eps) (st sys) obs q x times dt) := by
  have key : ∀ (I : Set K) (sys sys' : Sys K V W), (∀ t ∈ I, ∀ x, sys x t = sys' x t) → StepsAgree I (st sys) (st sys') :=
    fun I sys sys' h q x t dt hs => hst q x t dt sys sys' fun τ hτ => h τ (hs hτ)
  exact ⟨fun sys sys' h => integrateNStepsBasic_agree (key _ _ _ h) q x, fun sys sys' h => integrateConstBasic_agree heps (key _ _ _ h) q x,
    fun sys sys' h => integrateAdaptiveBasic_agree heps (key _ _ _ h) q x, fun sys sys' h => integrateTimesBasic_agree heps (key _ _ _ h) q x⟩

/-- a stepper object for `integrate_inside` -/
theorem stepper_object_inside (doStep : Sys K V W → Loc → K → K → StepM K V W Unit)
    (h : ∀ t dt, UsesOnly (duringStep t dt) (fun sys => doStep sys (.user 0) t dt)) (q : Heap K V W) (x : V) (t dt : K) :
    UsesOnly (duringStep t dt) (fun sys => (stepperObject (doStep sys)).doStep q x t dt) := by
  intro sys sys' hh
  simp only [stepperObject, h t dt sys sys' hh]

/-- The explicit steppers, the Dormand-Prince stepper and the multistep methods meet the hypothesis of `integrate_inside`. -/
example (s : ExplicitStepper K) (hs : s.Inside) (q : Heap K V W) (x : V) (t dt : K) :
    UsesOnly (duringStep t dt) (fun sys : Sys K V W => (stepperObject (doStep1 s.impl sys)).doStep q x t dt) :=
  stepper_object_inside (fun sys => doStep1 s.impl sys) (fun t dt => (do_step_inside s hs (.user 0) (.user 1) (.user 2) t dt).1) q x t dt

example (q : Heap K V W) (x : V) (t dt : K) :
    UsesOnly (duringStep t dt) (fun sys : Sys K V W => (stepperObject (fsalStep1 dopri5Impl false sys)).doStep q x t dt) :=
  stepper_object_inside (fun sys => fsalStep1 dopri5Impl false sys)
    (fun t dt => (do_step_dopri5_inside false (.user 0) (.user 1) (.user 2) (.user 3) (.user 4) t dt).1) q x t dt

/-- **C83, integrate functions with a controlled stepper** over a stepper with error estimate: with a step adjuster that keeps the direction and does
not enlarge rejected steps, the system function is used only between start and end; a step that has been tried and rejected is no exception. -/
theorem integrate_controlled_inside (P : CtrlParams K V) (s : ErrorStepper K) (hs : s.Inside) (obs : Observer (W × Log V K) V K) (eps : K) (heps : 0 ≤ eps)
    (q : Heap K V W) (x : V) (t0 t1 dt : K) (hdt : dt ≠ 0) (hP : P.Sensible dt) (n : ℕ) (times : List K) :
    let st := fun sys : Sys K V W => controlledObject (tryStep1 P s.errImpl sys)
    UsesOnly (during eps dt t0 (t0 + n * dt)) (fun sys => integrateNStepsControlled (TimeArith.exact K eps) (st sys) obs q x t0 dt n) ∧
    UsesOnly (during (2 * eps) dt t0 t1) (fun sys => integrateConstControlled (TimeArith.exact K eps) (st sys) obs q x t0 t1 dt) ∧
    UsesOnly (during eps dt t0 t1) (fun sys => integrateAdaptiveControlled (TimeArith.exact K eps) (st sys) obs q x t0 t1 dt) ∧
    UsesOnly (duringTimes times) (fun sys => integrateTimesControlled (TimeArith.exact K eps) (st sys) obs q x times dt) := by
  intro st
  have agree : ∀ (I : Set K) (sys sys' : Sys K V W), (∀ t ∈ I, ∀ x, sys x t = sys' x t) → TriesAgree I (st sys) (st sys') :=
    fun I sys sys' h => controlledObject_agree (fun sys => tryStep1 P s.errImpl sys) fun t dt hs' => tryStep1_agree P s hs (fun τ hτ => h τ (hs' hτ)) _
  have fwd : ∀ sys : Sys K V W, TriesForward dt (st sys) := fun sys => controlledObject_forward P hP _ fun _ _ _ _ _ _ e => tryStep1_result e
  have hdd : SameDir dt dt := by rcases lt_or_gt_of_ne hdt with h | h; exacts [Or.inr ⟨h, h⟩, Or.inl ⟨h, h⟩]
  exact ⟨fun sys sys' h => integrateNStepsControlled_agree heps (agree _ _ _ h) (fwd _).on hdt trivial x,
    fun sys sys' h => integrateConstControlled_agree heps (agree _ _ _ h) (fwd _).on hdt trivial x,
    fun sys sys' h => integrateAdaptiveControlled_agree heps (agree _ _ _ h) (fwd _).on hdd trivial x,
    fun sys sys' h => integrateTimesControlled_agree heps (agree _ _ _ h) (fwd _).on hdt trivial x⟩

/-- The same for the controlled Dormand-Prince stepper. -/
theorem integrate_controlled_dopri5_inside (P : CtrlParams K V) (resized : Bool) (obs : Observer (W × Log V K) V K) (eps : K) (heps : 0 ≤ eps)
    (q : Heap K V W) (x : V) (t0 t1 dt : K) (hdt : dt ≠ 0) (hP : P.Sensible dt) (n : ℕ) (times : List K) :
    let st := fun sys : Sys K V W => controlledObject (fsalTry1 P dopri5ErrImpl resized sys)
    UsesOnly (during eps dt t0 (t0 + n * dt)) (fun sys => integrateNStepsControlled (TimeArith.exact K eps) (st sys) obs q x t0 dt n) ∧
    UsesOnly (during (2 * eps) dt t0 t1) (fun sys => integrateConstControlled (TimeArith.exact K eps) (st sys) obs q x t0 t1 dt) ∧
    UsesOnly (during eps dt t0 t1) (fun sys => integrateAdaptiveControlled (TimeArith.exact K eps) (st sys) obs q x t0 t1 dt) ∧
    UsesOnly (duringTimes times) (fun sys => integrateTimesControlled (TimeArith.exact K eps) (st sys) obs q x times dt) := by
  intro st
  have agree : ∀ (I : Set K) (sys sys' : Sys K V W), (∀ t ∈ I, ∀ x, sys x t = sys' x t) → TriesAgree I (st sys) (st sys') :=
    fun I sys sys' h => controlledObject_agree (fun sys => fsalTry1 P dopri5ErrImpl resized sys) fun t dt hs' =>
      fsalTry1_agree P resized (fun τ hτ => h τ (hs' hτ)) _
  have fwd : ∀ sys : Sys K V W, TriesForward dt (st sys) := fun sys => controlledObject_forward P hP _ fun _ _ _ _ _ _ e => fsalTry1_result e
  have hdd : SameDir dt dt := by rcases lt_or_gt_of_ne hdt with h | h; exacts [Or.inr ⟨h, h⟩, Or.inl ⟨h, h⟩]
  exact ⟨fun sys sys' h => integrateNStepsControlled_agree heps (agree _ _ _ h) (fwd _).on hdt trivial x,
    fun sys sys' h => integrateConstControlled_agree heps (agree _ _ _ h) (fwd _).on hdt trivial x,
    fun sys sys' h => integrateAdaptiveControlled_agree heps (agree _ _ _ h) (fwd _).on hdd trivial x,
    fun sys sys' h => integrateTimesControlled_agree heps (agree _ _ _ h) (fwd _).on hdt trivial x⟩

/-- **C83, integrate functions with a dense output stepper** (`runge_kutta_dopri5`): `integrate_n_steps`, `integrate_adaptive` and, for times in the
direction of integration, `integrate_times`.  Missing: `integrate_const`, which steps beyond the end (`integrate_const_dense_outside`). -/
theorem integrate_dense_inside_partial (P : CtrlParams K V) (obs : Observer (W × Log V K) V K) (eps : K) (heps : 0 ≤ eps)
    (q : Heap K V W) (x : V) (t0 t1 dt : K) (hdt : dt ≠ 0) (hP : P.Sensible dt) (n : ℕ) (times : List K) (hm : MonotoneTimes dt (t0 :: times)) :
    UsesOnly (during eps dt t0 (t0 + n * dt))
      (fun sys : Sys K V W => integrateNStepsDense (TimeArith.exact K eps) (denseObject P sys) obs q x t0 dt n) ∧
    UsesOnly (during eps dt t0 t1)
      (fun sys : Sys K V W => integrateAdaptiveDense (TimeArith.exact K eps) (denseObject P sys) obs q x t0 t1 dt) ∧
    UsesOnly (during eps dt t0 (times.getLastD t0))
      (fun sys : Sys K V W => integrateTimesDense (TimeArith.exact K eps) (denseObject P sys) obs q x (t0 :: times) dt) :=
  ⟨fun sys _ h => integrateNStepsDense_agree heps (denseObject_agree P hP h) (denseObject_forward P hP sys) hdt q x,
    fun sys _ h => integrateAdaptiveDense_agree heps (denseObject_agree P hP h) (denseObject_forward P hP sys) hdt q x,
    fun sys _ h => integrateTimesDense_agree heps hm (denseObject_agree P hP h) (denseObject_forward P hP sys) hdt q x⟩

/-! ## The default step adjuster -/

/-- **C83**: the default error checker and step adjuster meet the requirement, without a limit of the step size or with a limit that points in the
direction of integration (with a limit in the opposite direction, the step changes its direction, see `try_step_max_dt_flips`). -/
theorem default_control_sensible (τ : Tolerances) (d p q : ℕ) (hp : 1 ≤ p) (hq : 2 ≤ q) (maxDt dt : ℝ) (hm : maxDt = 0 ∨ SameDir dt maxDt) :
    (τ.controlUpTo d p q maxDt).Sensible dt := by
  have turn : ∀ {d' : ℝ}, maxDt ≠ 0 → SameDir dt d' → SameDir maxDt d' ∧ SameDir dt maxDt := by
    intro d' h0 hd
    have hm' := hm.resolve_left h0
    refine ⟨?_, hm'⟩
    rcases hd with hd | hd <;> rcases hm' with hm' | hm'
    · exact Or.inl ⟨hm'.2, hd.2⟩
    · linarith [hd.1, hm'.1]
    · linarith [hd.1, hm'.1]
    · exact Or.inr ⟨hm'.2, hd.2⟩
  have back : ∀ {d' : ℝ}, maxDt ≠ 0 → SameDir maxDt d' → SameDir dt d' := by
    intro d' h0 hd
    have hm' := hm.resolve_left h0
    rcases hd with hd | hd <;> rcases hm' with hm' | hm'
    · exact Or.inl ⟨hm'.1, hd.2⟩
    · linarith [hd.1, hm'.2]
    · linarith [hd.1, hm'.2]
    · exact Or.inr ⟨hm'.1, hd.2⟩
  have lim : ∀ d' : ℝ, SameDir dt d' → SameDir dt (limitStep maxDt d') ∧ |limitStep maxDt d'| ≤ |d'| := by
    intro d' hd
    by_cases h0 : maxDt = 0
    · simp [limitStep, h0, hd]
    · obtain ⟨h1, -⟩ := turn h0 hd
      refine ⟨back h0 (limitStep_spec h1).1, ?_⟩
      unfold limitStep
      rcases h1 with ⟨a, b⟩ | ⟨a, b⟩
      · rw [if_neg h0, if_pos b, abs_of_pos b, abs_of_pos (lt_min b a)]; exact min_le_left _ _
      · rw [if_neg h0, if_neg (not_lt.2 b.le), abs_of_neg b, abs_of_neg (max_lt b a)]; linarith [le_max_left d' maxDt]
  constructor
  · intro d' e hd he
    change SameDir dt ((defaultAdjuster (realOps 0) maxDt).increaseStep d' e p)
    rw [increase_step_formula]
    split
    · exact (lim _ (hd.scale (incFactor_pos e (by exact_mod_cast hp)))).1
    · exact hd
  · intro d' e hd he
    change SameDir dt ((defaultAdjuster (realOps 0) maxDt).decreaseStep d' e q) ∧ |(defaultAdjuster (realOps 0) maxDt).decreaseStep d' e q| ≤ |d'|
    rw [decrease_step_formula]
    have he' : 1 < e := by simpa [Tolerances.controlUpTo] using he
    have hb := decFactor_bounds he' (order := (q : ℤ)) (by exact_mod_cast hq)
    have hpos := decFactor_pos e (q : ℤ)
    obtain ⟨h1, h2⟩ := lim _ (hd.scale hpos)
    refine ⟨h1, h2.trans ?_⟩
    rw [abs_mul, abs_of_pos hpos]
    nlinarith [abs_nonneg d', hb.2]
  · intro d' hd hc
    change (defaultAdjuster (realOps 0) maxDt).checkStepSizeLimit d' = false at hc
    change SameDir dt maxDt ∧ |maxDt| ≤ |d'|
    by_cases h0 : maxDt = 0
    · simp [h0, defaultAdjuster, checkStepSizeLimit, realOps, lit] at hc
    · obtain ⟨h1, h2⟩ := turn h0 hd
      refine ⟨h2, ?_⟩
      by_contra hlt
      have := (check_limit_iff (eps := 0) h1).2 (by rw [not_le] at hlt; linarith)
      rw [hc] at this
      cases this

/-! ## Non-vacuity -/

/-- A concrete case: a square root on the right-hand side, `x' = sqrt t`, that throws for `t < 0` and has undefined behaviour for `t > 1`.
`integrate_adaptive` with a controlled stepper, from `1` back to `0` with the default error control, does the same as with the function that is
defined everywhere. -/
example (τ : Tolerances) (q : Heap ℝ (Fin 1 → ℝ) Unit) (x : Fin 1 → ℝ) :
    let sys : Sys ℝ (Fin 1 → ℝ) Unit := fun _ t => pure fun _ => Real.sqrt t
    let bad : Sys ℝ (Fin 1 → ℝ) Unit := fun _ t => if t < 0 then M.throw (.user 7) else if 1 < t then M.ub else pure fun _ => Real.sqrt t
    let run := fun s : Sys ℝ (Fin 1 → ℝ) Unit => integrateAdaptiveControlled (TimeArith.exact ℝ 0)
      (controlledObject (tryStep1 (τ.controlUpTo 1 5 4 0) (ErrorStepper.cashKarp).errImpl s)) recordObserver q x 1 0 (-1 / 10)
    run bad = run sys := by
  intro sys bad run
  refine (integrate_controlled_inside (τ.controlUpTo 1 5 4 0) .cashKarp trivial recordObserver 0 le_rfl q x 1 0 (-1 / 10) (by norm_num)
    (default_control_sensible τ 1 5 4 (by norm_num) (by norm_num) 0 _ (Or.inl rfl)) 0 []).2.2.1 bad sys ?_
  intro t ht x
  unfold during at ht
  rw [if_neg (by norm_num)] at ht
  have h0 : ¬ t < 0 := by have := ht.1; norm_num at this; exact not_lt.2 this
  have h1 : ¬ 1 < t := not_lt.2 ht.2
  simp only [bad, sys, if_neg h0, if_neg h1]

end Verif
