import Verif.Model.Iterator

/-!
# The integrate functions built on the iterators

Models `iterator/integrate/detail/*.hpp` and `iterator/integrate/integrate_const.hpp`.  These headers define functions with the names of those in
`integrate/` (and the same include guards), as loops over the ranges of `iterator/`.  A range holds copies of the stepper.
-/

namespace Verif
variable {Q W S T : Type}

/-- `boost::for_each( range , obs_caller< Observer >( obs_calls , observer ) )`, which counts the observer calls,
`iterator/integrate/detail/functors.hpp:29-45`. -/
noncomputable def OdeIterator.forEachCounted {I : Type} (it : OdeIterator I W S T) (f : Observer W S T) (i : I) : M W (I × ℕ) :=
  whileM (fun p => !it.atEnd p.1) (fun p => do
    f (it.deref p.1).1 (it.deref p.1).2
    let i ← it.increment p.1
    return (i, p.2 + 1)) (i, 0)

/-- `boost::for_each( range , obs_caller_time< Observer , Time >( t , observer ) )`, which keeps the time of the last observer call,
`iterator/integrate/detail/functors.hpp:47-63`. -/
noncomputable def OdeIterator.forEachTimed {I : Type} (it : OdeIterator I W S T) (f : Observer W S T) (i : I) (t : T) : M W (I × T) :=
  whileM (fun p => !it.atEnd p.1) (fun p => do
    f (it.deref p.1).1 (it.deref p.1).2
    let i ← it.increment p.1
    return (i, (it.deref p.1).2)) (i, t)

/-- `obs_calls-1` for a `size_t` with 64 bits -/
def sizePred (n : ℕ) : ℕ := if n = 0 then 2 ^ 64 - 1 else n - 1

/-- `detail::integrate_const( ... , stepper_tag )`, `iterator/integrate/detail/integrate_const.hpp:44-60`.  The state is changed in place by the iterator. -/
noncomputable def iterConstBasic (A : TimeArith T) (st : BasicStepper Q W S T) (obs : Observer W S T) (q : Q) (x : S) (start end_ dt : T) : M W (S × ℕ) := do
  let (i, n) ← (constIterator A st start end_ dt).forEachCounted obs (constIteratorBegin A q x start end_ dt)
  return (i.x, sizePred n)

/-- `detail::integrate_n_steps( ... , stepper_tag )`, `iterator/integrate/detail/integrate_n_steps.hpp:44-56`. -/
noncomputable def iterNStepsBasic (A : TimeArith T) (st : BasicStepper Q W S T) (obs : Observer W S T) (q : Q) (x : S) (start dt : T) (n : ℕ) : M W (S × T) := do
  let (i, t) ← (nStepIterator A st start dt n).forEachTimed obs (nStepIteratorBegin q x start) start
  return (i.x, t)

/-- `detail::integrate_adaptive( ... , stepper_tag )`, `iterator/integrate/detail/integrate_adaptive.hpp:49-69`; the last step is made by the stepper
object the function was called with, whose copies were used before. -/
noncomputable def iterAdaptiveBasic (A : TimeArith T) (st : BasicStepper Q W S T) (obs : Observer W S T) (q : Q) (x : S) (start end_ dt : T) : M W (S × ℕ) := do
  let (x, steps) ← iterConstBasic A st obs q x start end_ dt
  let e := A.add start (A.nmul steps dt)
  if A.lessWithSign e end_ dt then do
    let (_, x) ← st.doStep q x e (A.sub end_ e)
    obs x end_
    return (x, steps + 1)
  else
    return (x, steps)

/-- `detail::integrate_adaptive( ... , controlled_stepper_tag )`, `iterator/integrate/detail/integrate_adaptive.hpp:75-89`.  `start_time` and `dt` are
reference parameters, but the range gets them by value: they do not change. -/
noncomputable def iterAdaptiveControlled (A : TimeArith T) (st : ControlledStepper Q W S T) (obs : Observer W S T) (q : Q) (x : S) (start end_ dt : T) :
    M W (S × ℕ) := do
  let (i, n) ← (adaptiveIterator A st end_).forEachCounted obs (adaptiveIteratorBegin A q x start end_ dt)
  return (i.x, sizePred n)

/-- `detail::integrate_adaptive( ... , dense_output_stepper_tag )`, `iterator/integrate/detail/integrate_adaptive.hpp:97-110`.  The iterator does not keep
a reference to `start_state` (`iterator/impl/adaptive_iterator_impl.hpp:189-199`), which is returned as it is. -/
noncomputable def iterAdaptiveDense (A : TimeArith T) (st : DenseStepper Q W S T) (obs : Observer W S T) (q : Q) (x : S) (start end_ dt : T) : M W (S × ℕ) := do
  let b ← adaptiveDenseIteratorBegin A st q x start end_ dt
  let (_, n) ← (adaptiveDenseIterator A st end_).forEachCounted obs b
  return (x, sizePred n)

/-- `detail::integrate_const( ... , controlled_stepper_tag )`, `iterator/integrate/detail/integrate_const.hpp:64-90`. -/
noncomputable def iterConstControlled (A : TimeArith T) (st : ControlledStepper Q W S T) (obs : Observer W S T) (q : Q) (x : S) (start end_ dt : T) :
    M W (S × ℕ) := do
  let s ← whileM (fun s : S × T × ℕ => A.lessEqWithSign (A.add s.2.1 dt) end_ dt)
    (fun s => do
      obs s.1 s.2.1
      let (x, _) ← iterAdaptiveControlled A st nullObserver q s.1 s.2.1 (A.add s.2.1 dt) dt
      return (x, A.add start (A.nmul (s.2.2 + 1) dt), s.2.2 + 1))
    (x, start, 0)
  obs s.1 s.2.1
  return (s.1, s.2.2)

/-- The `for` loop of `integrate_n_steps` for controlled steppers, `iterator/integrate/detail/integrate_n_steps.hpp:71-79`, `k` iterations to go. -/
noncomputable def iterNStepsControlledLoop (A : TimeArith T) (st : ControlledStepper Q W S T) (obs : Observer W S T) (q : Q) (start dt : T) :
    (k step : ℕ) → S → T → M W (S × T)
  | 0, _, x, time => pure (x, time)
  | k + 1, step, x, time => do
    obs x time
    let (x, _) ← iterAdaptiveControlled A st nullObserver q x time (A.add time dt) dt
    iterNStepsControlledLoop A st obs q start dt k (step + 1) x (A.add start (A.nmul (step + 1) dt))

/-- `detail::integrate_n_steps( ... , controlled_stepper_tag )`, `iterator/integrate/detail/integrate_n_steps.hpp:60-83`. -/
noncomputable def iterNStepsControlled (A : TimeArith T) (st : ControlledStepper Q W S T) (obs : Observer W S T) (q : Q) (x : S) (start dt : T) (n : ℕ) :
    M W (S × T) := do
  let (x, time) ← iterNStepsControlledLoop A st obs q start dt n 0 x start
  obs x time
  return (x, time)

/-- `detail::integrate_const( ... , dense_output_stepper_tag )`, `iterator/integrate/detail/integrate_const.hpp:93-106`. -/
noncomputable def iterConstDense (A : TimeArith T) (st : DenseStepper Q W S T) (obs : Observer W S T) (q : Q) (x : S) (start end_ dt : T) : M W (S × ℕ) := do
  let b ← constDenseIteratorBegin A st q x start end_ dt
  let (i, n) ← (constDenseIterator A st start end_ dt).forEachCounted obs b
  return (i.x, sizePred n)

/-- `detail::integrate_n_steps( ... , dense_output_stepper_tag )`, `iterator/integrate/detail/integrate_n_steps.hpp:87-99`. -/
noncomputable def iterNStepsDense (A : TimeArith T) (st : DenseStepper Q W S T) (obs : Observer W S T) (q : Q) (x : S) (start dt : T) (n : ℕ) : M W (S × T) := do
  let b ← nStepDenseIteratorBegin st q x start dt
  let (i, t) ← (nStepDenseIterator A st start dt n).forEachTimed obs b start
  return (i.x, t)

/-- `detail::integrate_times` with a plain stepper, `iterator/integrate/detail/integrate_times.hpp:42-58`. -/
noncomputable def iterTimesBasic (A : TimeArith T) (st : BasicStepper Q W S T) (obs : Observer W S T) (q : Q) (x : S) (times : List T) (dt : T) : M W (S × ℕ) := do
  let b ← timesIteratorBegin q x times dt
  let (i, n) ← (timesIterator A st).forEachCounted obs b
  return (i.x, sizePred n)

/-- `integrate_const` with an observer or with `null_observer`, `iterator/integrate/integrate_const.hpp:40-62`. -/
noncomputable def iterConstFrontDense (A : TimeArith T) (st : DenseStepper Q W S T) (obs : Option (Observer W S T)) (q : Q) (x : S) (start end_ dt : T) :
    M W (S × ℕ) :=
  match obs with
  | none => iterAdaptiveDense A st nullObserver q x start end_ dt
  | some obs => iterConstDense A st obs q x start end_ dt

end Verif
