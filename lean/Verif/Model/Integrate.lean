import Verif.Prelude.Res
import Verif.Model.TimeArith

/-!
# The integrate functions

Models `integrate/detail/integrate_n_steps.hpp`, `integrate_const.hpp`, `integrate_adaptive.hpp`,
`integrate_times.hpp`, `integrate/max_step_checker.hpp` and `integrate/check_adapter.hpp`.

Conventions used throughout:

* `S` is the state type, `T` the time type, `W` the shared world, `Q` the internal state of a stepper
  (the `System` argument is part of the stepper model: it never changes during a call).
* Steppers are passed by value in the C++ code, hence `Q` is an explicit argument; a callee's
  modification of its copy is dropped exactly where the C++ code passes a copy.
* Reference parameters (`State &start_state`, and for the controlled `integrate_adaptive` also
  `Time &start_time`, `Time &dt`) are returned.
* `size_t` and `int` counters are natural numbers (simplification: no integer overflow).
-/

namespace Verif

/-- A plain (or error) stepper: `do_step( system , x , t , dt )` in place. -/
structure BasicStepper (Q W S T : Type) where
  doStep : Q → S → T → T → M W (Q × S)

/-- Everything a `try_step( system , x , t , dt )` call may change, and its result. -/
structure TryResult (Q S T : Type) where
  q : Q
  x : S
  t : T
  dt : T
  /-- `true` for `success`, `false` for `fail` (`stepper/controlled_step_result.hpp`) -/
  success : Bool

/-- A controlled stepper. -/
structure ControlledStepper (Q W S T : Type) where
  tryStep : Q → S → T → T → M W (TryResult Q S T)

/-- A dense output stepper (`doc/concepts/dense_output_stepper.qbk`). -/
structure DenseStepper (Q W S T : Type) where
  init : Q → S → T → T → M W Q
  doStep : Q → M W Q
  calcState : Q → T → M W S
  curState : Q → S
  curTime : Q → T
  curDt : Q → T

/-- An observer; its effect is on the shared world (simplification: an observer object copied by value
with private mutable state is not distinguished from one used by reference). -/
abbrev Observer (W S T : Type) := S → T → M W Unit

/-- `null_observer`, `integrate/null_observer.hpp:25-34`. -/
def nullObserver {W S T : Type} : Observer W S T := fun _ _ => pure ()

section
variable {Q W S T : Type}

/-- `observer_collection::operator()`, `integrate/observer_collection.hpp:33-37`. -/
def observerCollection (l : List (Observer W S T)) : Observer W S T := fun x t =>
  l.forM fun o => o x t

/-! ## Step checkers -/

/-- `failed_step_checker::operator()`, `integrate/max_step_checker.hpp:99-107`. -/
def failedStepChecker (max : ℕ) (c : ℕ) : M W ℕ :=
  if c ≥ max then M.throw .stepAdjustment else pure (c + 1)

/-- Default limit, `integrate/max_step_checker.hpp:50,92`. -/
def defaultMaxSteps : ℕ := 500

/-! ## `integrate_n_steps` -/

/-- Local variables of the loop in `integrate_n_steps` (basic). -/
structure NState (Q S T : Type) where
  q : Q
  x : S
  time : T

/-- The `for` loop `integrate/detail/integrate_n_steps.hpp:54-61`, entered at loop index `step` with
`k` iterations to go. -/
def nStepsBasicLoop (A : TimeArith T) (st : BasicStepper Q W S T) (obs : Observer W S T)
    (start dt : T) : (k step : ℕ) → NState Q S T → M W (NState Q S T)
  | 0, _, s => pure s
  | k + 1, step, s => do
    obs s.x s.time
    let (q, x) ← st.doStep s.q s.x s.time dt
    nStepsBasicLoop A st obs start dt k (step + 1) ⟨q, x, A.add start (A.nmul (step + 1) dt)⟩

/-- `detail::integrate_n_steps( ... , stepper_tag )`,
`integrate/detail/integrate_n_steps.hpp:43-65`; returns the new state and the returned time. -/
def integrateNStepsBasic (A : TimeArith T) (st : BasicStepper Q W S T) (obs : Observer W S T)
    (q : Q) (x : S) (start dt : T) (n : ℕ) : M W (S × T) := do
  let s ← nStepsBasicLoop A st obs start dt n 0 ⟨q, x, start⟩
  obs s.x s.time
  return (s.x, s.time)

/-! ## `integrate_const`, plain stepper -/

/-- Local variables of the loop in `integrate_const` (basic). -/
structure ConstState (Q S T : Type) where
  q : Q
  x : S
  time : T
  step : ℕ

/-- `detail::integrate_const( ... , stepper_tag )`, `integrate/detail/integrate_const.hpp:42-68`;
returns the new state and the returned step count. -/
noncomputable def integrateConstBasic (A : TimeArith T) (st : BasicStepper Q W S T)
    (obs : Observer W S T) (q : Q) (x : S) (start end_ dt : T) : M W (S × ℕ) := do
  let s ← whileM (fun s : ConstState Q S T => A.lessEqWithSign (A.add s.time dt) end_ dt)
    (fun s => do
      obs s.x s.time
      let (q, x) ← st.doStep s.q s.x s.time dt
      return ⟨q, x, A.add start (A.nmul (s.step + 1) dt), s.step + 1⟩)
    ⟨q, x, start, 0⟩
  obs s.x s.time
  return (s.x, s.step)

/-! ## `integrate_adaptive` -/

/-- `detail::integrate_adaptive( ... , stepper_tag )`,
`integrate/detail/integrate_adaptive.hpp:54-74`.  The stepper is passed by value to
`integrate_const`, so the last step is made by the *original* stepper `q`.
(`dt*steps` is modelled by the same multiplication as `steps*dt`.) -/
noncomputable def integrateAdaptiveBasic (A : TimeArith T) (st : BasicStepper Q W S T)
    (obs : Observer W S T) (q : Q) (x : S) (start end_ dt : T) : M W (S × ℕ) := do
  let (x, steps) ← integrateConstBasic A st obs q x start end_ dt
  let e := A.add start (A.nmul steps dt)
  if A.lessWithSign e end_ dt then do
    let (_, x) ← st.doStep q x e (A.sub end_ e)
    obs x end_
    return (x, steps + 1)
  else
    return (x, steps)

/-- Local variables of the controlled `integrate_adaptive`. -/
structure AdaptState (Q S T : Type) where
  q : Q
  x : S
  t : T
  dt : T
  /-- the counter of `fail_checker` -/
  fails : ℕ
  /-- `res == success` of the last `try_step` -/
  success : Bool

/-- Loop body of the retry loop, `integrate/detail/integrate_adaptive.hpp:103-104`. -/
def retryBody (st : ControlledStepper Q W S T) (s : AdaptState Q S T) : M W (AdaptState Q S T) := do
  let r ← st.tryStep s.q s.x s.t s.dt
  let fails ← failedStepChecker defaultMaxSteps s.fails
  return ⟨r.q, r.x, r.t, r.dt, fails, r.success⟩

/-- The retry loop `do { ... } while( res == fail )`,
`integrate/detail/integrate_adaptive.hpp:101-106`. -/
noncomputable def retryLoop (st : ControlledStepper Q W S T) (s : AdaptState Q S T) :
    M W (AdaptState Q S T) := do
  let s ← retryBody st s
  whileM (fun s : AdaptState Q S T => !s.success) (retryBody st) s

/-- Clipping of the step size at the end of the interval,
`integrate/detail/integrate_adaptive.hpp:95-98`. -/
def clipDt (A : TimeArith T) (t end_ dt : T) : T :=
  if A.lessWithSign end_ (A.add t dt) dt then A.sub end_ t else dt

/-- What the controlled `integrate_adaptive` returns (value and reference parameters). -/
structure AdaptResult (S T : Type) where
  x : S
  t : T
  dt : T
  count : ℕ

/-- `detail::integrate_adaptive( ... , controlled_stepper_tag )`,
`integrate/detail/integrate_adaptive.hpp:80-113`. -/
noncomputable def integrateAdaptiveControlled (A : TimeArith T) (st : ControlledStepper Q W S T)
    (obs : Observer W S T) (q : Q) (x : S) (start end_ dt : T) : M W (AdaptResult S T) := do
  let (s, count) ← whileM
    (fun p : AdaptState Q S T × ℕ => A.lessWithSign p.1.t end_ p.1.dt)
    (fun p => do
      obs p.1.x p.1.t
      let s ← retryLoop st { p.1 with dt := clipDt A p.1.t end_ p.1.dt }
      return ({ s with fails := 0 }, p.2 + 1))
    (⟨q, x, start, dt, 0, true⟩, 0)
  obs s.x s.t
  return ⟨s.x, s.t, s.dt, count⟩

/-- `detail::integrate_adaptive( ... , dense_output_stepper_tag )`,
`integrate/detail/integrate_adaptive.hpp:121-150`. -/
noncomputable def integrateAdaptiveDense (A : TimeArith T) (st : DenseStepper Q W S T)
    (obs : Observer W S T) (q : Q) (x : S) (start end_ dt : T) : M W (S × ℕ) := do
  let q ← st.init q x start dt
  let (q, count) ← whileM
    (fun p : Q × ℕ => A.lessWithSign (st.curTime p.1) end_ (st.curDt p.1))
    (fun p => do
      let (q, count) ← whileM
        (fun p : Q × ℕ =>
          A.lessEqWithSign (A.add (st.curTime p.1) (st.curDt p.1)) end_ (st.curDt p.1))
        (fun p => do
          obs (st.curState p.1) (st.curTime p.1)
          let q ← st.doStep p.1
          return (q, p.2 + 1))
        p
      let q ← st.init q (st.curState q) (st.curTime q) (A.sub end_ (st.curTime q))
      return (q, count))
    (q, 0)
  obs (st.curState q) (st.curTime q)
  return (st.curState q, count)

/-! ## `integrate_n_steps` and `integrate_const`, controlled stepper -/

/-- Local variables of the controlled `integrate_n_steps` / `integrate_const`. -/
structure CtrlState (S T : Type) where
  x : S
  time : T
  dt : T
  step : ℕ
  real : ℕ

/-- The `for` loop `integrate/detail/integrate_n_steps.hpp:80-89`, `k` iterations to go.  The stepper
`q` is copied into every call of `integrate_adaptive`. -/
noncomputable def nStepsControlledLoop (A : TimeArith T) (st : ControlledStepper Q W S T)
    (obs : Observer W S T) (q : Q) (start timeStep : T) :
    (k step : ℕ) → S → T → T → M W (S × T)
  | 0, _, x, time, _ => pure (x, time)
  | k + 1, step, x, time, dt => do
    obs x time
    let r ← integrateAdaptiveControlled A st nullObserver q x time (A.add time timeStep) dt
    nStepsControlledLoop A st obs q start timeStep k (step + 1) r.x
      (A.add start (A.nmul (step + 1) timeStep)) r.dt

/-- `detail::integrate_n_steps( ... , controlled_stepper_tag )`,
`integrate/detail/integrate_n_steps.hpp:69-93`. -/
noncomputable def integrateNStepsControlled (A : TimeArith T) (st : ControlledStepper Q W S T)
    (obs : Observer W S T) (q : Q) (x : S) (start dt : T) (n : ℕ) : M W (S × T) := do
  let (x, time) ← nStepsControlledLoop A st obs q start dt n 0 x start dt
  obs x time
  return (x, time)

/-- `detail::integrate_const( ... , controlled_stepper_tag )`,
`integrate/detail/integrate_const.hpp:72-101`. -/
noncomputable def integrateConstControlled (A : TimeArith T) (st : ControlledStepper Q W S T)
    (obs : Observer W S T) (q : Q) (x : S) (start end_ dt : T) : M W (S × ℕ) := do
  let s ← whileM
    (fun s : CtrlState S T => A.lessEqWithSign (A.add s.time dt) end_ s.dt)
    (fun s => do
      obs s.x s.time
      let r ← integrateAdaptiveControlled A st nullObserver q s.x s.time (A.add s.time dt) s.dt
      return ⟨r.x, A.add start (A.nmul (s.step + 1) dt), r.dt, s.step + 1, s.real + r.count⟩)
    ⟨x, start, dt, 0, 0⟩
  obs s.x s.time
  return (s.x, s.real)

/-! ## Dense output versions of `integrate_n_steps` and `integrate_const` -/

/-- Local variables of the dense `integrate_n_steps` / `integrate_const`. -/
structure DenseState (Q S T : Type) where
  q : Q
  x : S
  time : T
  /-- `step` of `integrate_n_steps`, `obs_step` of `integrate_const` -/
  step : ℕ
  /-- `real_step` of `integrate_const` -/
  real : ℕ

/-- `detail::integrate_n_steps( ... , dense_output_stepper_tag )`,
`integrate/detail/integrate_n_steps.hpp:97-153`; returns the state variable (the last value written by
`calc_state`) and the returned time. -/
noncomputable def integrateNStepsDense (A : TimeArith T) (st : DenseStepper Q W S T)
    (obs : Observer W S T) (q : Q) (x : S) (start dt : T) (n : ℕ) : M W (S × T) := do
  let end_ := A.add start (A.nmul n dt)
  let q ← st.init q x start dt
  let s ← whileM (fun s : DenseState Q S T => decide (s.step < n))
    (fun s => do
      -- lines 115-123
      let s ← whileM
        (fun s : DenseState Q S T => A.lessWithSign s.time (st.curTime s.q) (st.curDt s.q))
        (fun s => do
          let x ← st.calcState s.q s.time
          obs x s.time
          return { s with x := x, step := s.step + 1,
                          time := A.add start (A.nmul (s.step + 1) dt) })
        s
      -- lines 126-136
      if A.lessWithSign (A.add (st.curTime s.q) (st.curDt s.q)) end_ (st.curDt s.q) then do
        let q ← st.doStep s.q
        return { s with q := q }
      else if A.lessWithSign (st.curTime s.q) end_ (st.curDt s.q) then do
        let q ← st.init s.q (st.curState s.q) (st.curTime s.q)
          (A.sub end_ (st.curTime s.q))
        let q ← st.doStep q
        return { s with q := q }
      else return s)
    ⟨q, x, start, 0, 0⟩
  -- lines 140-147: note the plain `<`
  let s ← whileM (fun s : DenseState Q S T => A.lt (st.curTime s.q) end_)
    (fun s => do
      let q ← if A.lessWithSign end_ (A.add (st.curTime s.q) (st.curDt s.q)) (st.curDt s.q) then
          st.init s.q (st.curState s.q) (st.curTime s.q) (A.sub end_ (st.curTime s.q))
        else pure s.q
      let q ← st.doStep q
      return { s with q := q })
    s
  obs (st.curState s.q) end_
  return (s.x, s.time)

/-- `detail::integrate_const( ... , dense_output_stepper_tag )`,
`integrate/detail/integrate_const.hpp:104-162`; returns the state variable and the number of steps. -/
noncomputable def integrateConstDense (A : TimeArith T) (st : DenseStepper Q W S T)
    (obs : Observer W S T) (q : Q) (x : S) (start end_ dt : T) : M W (S × ℕ) := do
  let q ← st.init q x start dt
  obs x start
  let s ← whileM
    (fun s : DenseState Q S T => A.lessEqWithSign (A.add s.time dt) end_ dt)
    (fun s => do
      -- lines 125-133
      let s ← whileM (fun s : DenseState Q S T => A.lessEqWithSign s.time (st.curTime s.q) dt)
        (fun s => do
          let x ← st.calcState s.q s.time
          obs x s.time
          return { s with x := x, step := s.step + 1,
                          time := A.add start (A.nmul (s.step + 1) dt) })
        s
      -- lines 135-150
      if A.lessWithSign (A.add (st.curTime s.q) (st.curDt s.q)) end_ (st.curDt s.q) then
        whileM (fun s : DenseState Q S T => A.lessEqWithSign (st.curTime s.q) s.time dt)
          (fun s => do
            let q ← st.doStep s.q
            return { s with q := q, real := s.real + 1 })
          s
      else if A.lessWithSign (st.curTime s.q) end_ (st.curDt s.q) then do
        let q ← st.init s.q (st.curState s.q) (st.curTime s.q)
          (A.sub end_ (st.curTime s.q))
        let q ← st.doStep q
        return { s with q := q, real := s.real + 1 }
      else return s)
    ⟨q, x, A.add start dt, 1, 0⟩
  if A.lessEqWithSign s.time end_ dt then do
    let x ← st.calcState s.q s.time
    obs x s.time
    return (x, s.real)
  else
    return (s.x, s.real)

/-! ## `integrate_times` -/

/-- Local variables of the inner loop of the basic `integrate_times`. -/
structure TimesState (Q S T : Type) where
  q : Q
  x : S
  /-- `current_time` -/
  time : T
  /-- `current_dt` (basic) or `dt` (controlled) -/
  dt : T
  steps : ℕ
  /-- counter of `fail_checker` (controlled) -/
  fails : ℕ

/-- Inner loop of the basic `integrate_times`, `integrate/detail/integrate_times.hpp:64-70`. -/
noncomputable def timesBasicInner (A : TimeArith T) (st : BasicStepper Q W S T) (dt next : T)
    (s : TimesState Q S T) : M W (TimesState Q S T) :=
  whileM (fun s : TimesState Q S T => A.lessWithSign s.time next s.dt)
    (fun s => do
      let cdt := A.minAbs dt (A.sub next s.time)
      let (q, x) ← st.doStep s.q s.x s.time cdt
      return ⟨q, x, A.add s.time cdt, cdt, s.steps + 1, s.fails⟩)
    s

/-- The outer loop of the basic `integrate_times`, `integrate/detail/integrate_times.hpp:58-71`; the
iterator range is a list; dereferencing the end iterator is undefined behaviour. -/
noncomputable def timesBasicLoop (A : TimeArith T) (st : BasicStepper Q W S T)
    (obs : Observer W S T) (dt : T) : List T → TimesState Q S T → M W (S × ℕ)
  | [], _ => M.ub
  | [t], s => do
    obs s.x t
    return (s.x, s.steps)
  | t :: next :: rest, s => do
    obs s.x t
    let s ← timesBasicInner A st dt next { s with time := t }
    timesBasicLoop A st obs dt (next :: rest) s

/-- `detail::integrate_times( ... , stepper_tag )`,
`integrate/detail/integrate_times.hpp:42-73`. -/
noncomputable def integrateTimesBasic (A : TimeArith T) (st : BasicStepper Q W S T)
    (obs : Observer W S T) (q : Q) (x : S) (times : List T) (dt : T) : M W (S × ℕ) :=
  -- `current_time` is assigned before it is read
  timesBasicLoop A st obs dt times ⟨q, x, A.zero, dt, 0, 0⟩

/-- Body of the inner loop of the controlled `integrate_times`,
`integrate/detail/integrate_times.hpp:98-114`. -/
def timesControlledBody (A : TimeArith T) (st : ControlledStepper Q W S T) (next : T)
    (s : TimesState Q S T) : M W (TimesState Q S T) := do
  let cdt := A.minAbs s.dt (A.sub next s.time)
  let r ← st.tryStep s.q s.x s.time cdt
  if r.success then
    return ⟨r.q, r.x, r.t, A.maxAbs s.dt r.dt, s.steps + 1, 0⟩
  else do
    let fails ← failedStepChecker defaultMaxSteps s.fails
    return ⟨r.q, r.x, r.t, r.dt, s.steps, fails⟩

/-- Inner loop of the controlled `integrate_times`,
`integrate/detail/integrate_times.hpp:97-114`. -/
noncomputable def timesControlledInner (A : TimeArith T) (st : ControlledStepper Q W S T) (next : T)
    (s : TimesState Q S T) : M W (TimesState Q S T) :=
  whileM (fun s : TimesState Q S T => A.lessWithSign s.time next s.dt)
    (timesControlledBody A st next) s

/-- Outer loop of the controlled `integrate_times`,
`integrate/detail/integrate_times.hpp:91-115`. -/
noncomputable def timesControlledLoop (A : TimeArith T) (st : ControlledStepper Q W S T)
    (obs : Observer W S T) : List T → TimesState Q S T → M W (S × ℕ)
  | [], _ => M.ub
  | [t], s => do
    obs s.x t
    return (s.x, s.steps)
  | t :: next :: rest, s => do
    obs s.x t
    let s ← timesControlledInner A st next { s with time := t }
    timesControlledLoop A st obs (next :: rest) s

/-- `detail::integrate_times( ... , controlled_stepper_tag )`,
`integrate/detail/integrate_times.hpp:78-117`. -/
noncomputable def integrateTimesControlled (A : TimeArith T) (st : ControlledStepper Q W S T)
    (obs : Observer W S T) (q : Q) (x : S) (times : List T) (dt : T) : M W (S × ℕ) :=
  timesControlledLoop A st obs times ⟨q, x, A.zero, dt, 0, 0⟩

/-- Local variables of the dense `integrate_times`. -/
structure DenseTimesState (Q S T : Type) where
  q : Q
  x : S
  /-- the range `[start_time, end_time)` still to be visited -/
  rest : List T
  count : ℕ

/-- `*start_time` for the inner loop test; the guard `start_time != end_time` is tested first. -/
def headLessEq (A : TimeArith T) (l : List T) (t dt : T) : Bool :=
  match l with
  | [] => false
  | τ :: _ => A.lessEqWithSign τ t dt

/-- Body of the inner observation loop, `integrate/detail/integrate_times.hpp:148-152`. -/
def denseTimesObserve (st : DenseStepper Q W S T) (obs : Observer W S T)
    (s : DenseTimesState Q S T) : M W (DenseTimesState Q S T) :=
  match s.rest with
  | [] => M.ub
  | τ :: rest => do
    let x ← st.calcState s.q τ
    obs x τ
    return { s with x := x, rest := rest }

/-- Body of the outer loop, `integrate/detail/integrate_times.hpp:146-168`. -/
noncomputable def denseTimesBody (A : TimeArith T) (st : DenseStepper Q W S T)
    (obs : Observer W S T) (last : T) (s : DenseTimesState Q S T) : M W (DenseTimesState Q S T) := do
  let s ← whileM
    (fun s : DenseTimesState Q S T => headLessEq A s.rest (st.curTime s.q) (st.curDt s.q))
    (denseTimesObserve st obs) s
  if A.lessEqWithSign (A.add (st.curTime s.q) (st.curDt s.q)) last (st.curDt s.q) then do
    let q ← st.doStep s.q
    return { s with q := q, count := s.count + 1 }
  else if !s.rest.isEmpty then do
    let q ← st.init s.q (st.curState s.q) (st.curTime s.q) (A.sub last (st.curTime s.q))
    let q ← st.doStep q
    return { s with q := q, count := s.count + 1 }
  else return s

/-- `detail::integrate_times( ... , dense_output_stepper_tag )`,
`integrate/detail/integrate_times.hpp:122-170`. -/
noncomputable def integrateTimesDense (A : TimeArith T) (st : DenseStepper Q W S T)
    (obs : Observer W S T) (q : Q) (x : S) (times : List T) (dt : T) : M W (S × ℕ) :=
  match times with
  | [] => return (x, 0)
  | t0 :: rest => do
    let last := rest.getLastD t0
    let q ← st.init q x t0 dt
    obs x t0
    let s ← whileM (fun s : DenseTimesState Q S T => !s.rest.isEmpty)
      (denseTimesBody A st obs last) ⟨q, x, rest, 0⟩
    return (s.x, s.count)

/-! ## Checked steppers and observers (`integrate/check_adapter.hpp`)

`checked_stepper` and `checked_observer` hold references to the stepper, the observer and the
checker; the checker's counter therefore lives in the world. -/

/-- Run a computation on the first component of a larger world. -/
def M.onFst {W V α : Type} (m : M W α) : M (W × V) α := fun p =>
  match m p.1 with
  | .ok a w => .ok a (w, p.2)
  | .err e w => .err e (w, p.2)
  | .ub => .ub
  | .div => .div

/-- `max_step_checker::operator()`, `integrate/max_step_checker.hpp:67-75`, called by the adapters as
`m_checker()` with the counter in the world; on a throw the counter has been incremented
(`m_steps++`), `integrate/max_step_checker.hpp:69`. -/
def callChecker (max : ℕ) : M (W × ℕ) Unit := fun p =>
  if p.2 ≥ max then .err .noProgress (p.1, p.2 + 1) else .ok () (p.1, p.2 + 1)

/-- `checked_stepper< Stepper , Checker , stepper_tag >`, `integrate/check_adapter.hpp:35-70`.
(The wrapped stepper is held by reference; the loops that receive a checked plain stepper never copy
it, so keeping its state in `Q` is equivalent.) -/
def checkedBasic (max : ℕ) (st : BasicStepper Q W S T) : BasicStepper Q (W × ℕ) S T where
  doStep q x t dt := do
    let r ← (st.doStep q x t dt).onFst
    callChecker max
    return r

/-- `checked_stepper< Stepper , Checker , controlled_stepper_tag >`,
`integrate/check_adapter.hpp:76-118`.  The stepper is held by reference, so its state is in the world
and survives the by-value passing of the adapter to `integrate_adaptive`. -/
def checkedControlled (max : ℕ) (st : ControlledStepper Q W S T) :
    ControlledStepper Unit ((W × Q) × ℕ) S T where
  tryStep _ x t dt := fun p =>
    match st.tryStep p.1.2 x t dt p.1.1 with
    | .ok r w =>
      if r.success then
        (do callChecker max; return ⟨(), r.x, r.t, r.dt, true⟩ : M ((W × Q) × ℕ) _) ((w, r.q), p.2)
      else .ok ⟨(), r.x, r.t, r.dt, false⟩ ((w, r.q), p.2)
    | .err e w => .err e ((w, p.1.2), p.2)
    | .ub => .ub
    | .div => .div

/-- `checked_stepper< Stepper , Checker , dense_output_stepper_tag >`,
`integrate/check_adapter.hpp:124-185`: the checker is called *before* the step. -/
def checkedDense (max : ℕ) (st : DenseStepper Q W S T) : DenseStepper Q (W × ℕ) S T where
  init q x t dt := (st.init q x t dt).onFst
  doStep q := do
    callChecker max
    (st.doStep q).onFst
  calcState q t := (st.calcState q t).onFst
  curState := st.curState
  curTime := st.curTime
  curDt := st.curDt

/-- `checked_observer`, `integrate/check_adapter.hpp:191-215`: observe, then reset the counter. -/
def checkedObserver {V : Type} (obs : Observer W S T) : Observer ((W × V) × ℕ) S T := fun x t => do
  ((obs x t).onFst (V := V)).onFst
  M.modify (fun p => (p.1, 0))

/-- `checked_observer` for the adapters whose stepper is not in the world. -/
def checkedObserver' (obs : Observer W S T) : Observer (W × ℕ) S T := fun x t => do
  (obs x t).onFst
  M.modify (fun p => (p.1, 0))

end

end Verif
