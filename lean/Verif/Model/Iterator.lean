import Verif.Model.Integrate

/-!
# ODE iterators

Models `iterator/detail/ode_iterator_base.hpp` and `iterator/impl/*_iterator_impl.hpp`, the iterators whose
value is the pair `(state, time)` (`ode_state_time_iterator_tag`).

Two iterators compare equal iff their `m_at_end` flags agree (`ode_iterator_base.hpp:164-174`), and the end
iterator of a range has `m_at_end == true` (`ode_iterator_base.hpp:144-146`); hence `it != end` is
`!m_at_end`.  The state variable an iterator points to (`m_state`) is a field here; nobody else writes to it
during the iteration.
-/

namespace Verif
variable {Q W S T : Type}

/-- An iterator class: `++it`, the flag `m_at_end`, and `*it`
(`ode_iterator_base.hpp:176-180`). -/
structure OdeIterator (I W S T : Type) where
  increment : I → M W I
  atEnd : I → Bool
  deref : I → S × T

/-- The loop `for( ; it != end ; ++it ) f( it->first , it->second );` over a range. -/
noncomputable def OdeIterator.forEach {I : Type} (it : OdeIterator I W S T) (f : Observer W S T) (i : I) :
    M W I :=
  whileM (fun i => !it.atEnd i) (fun i => do
    f (it.deref i).1 (it.deref i).2
    it.increment i) i

/-! ## `const_step_iterator_impl` -/

/-- Fields of `const_step_iterator_impl< ... , stepper_tag >` that change during the iteration. -/
structure ConstIter (Q S T : Type) where
  q : Q
  x : S
  t : T
  step : ℕ
  atEnd : Bool

/-- `increment`, `iterator/impl/const_step_iterator_impl.hpp:87-100`. -/
def constIterator (A : TimeArith T) (st : BasicStepper Q W S T) (start end_ dt : T) :
    OdeIterator (ConstIter Q S T) W S T where
  increment i :=
    if A.lessEqWithSign (A.add i.t dt) end_ dt then do
      let (q, x) ← st.doStep i.q i.x i.t dt
      return { i with q := q, x := x, step := i.step + 1, t := A.add start (A.nmul (i.step + 1) dt) }
    else return { i with atEnd := true }
  atEnd i := i.atEnd
  deref i := (i.x, i.t)

/-- The begin iterator, `iterator/impl/const_step_iterator_impl.hpp:66-71`. -/
def constIteratorBegin (A : TimeArith T) (q : Q) (x : S) (start end_ dt : T) : ConstIter Q S T :=
  ⟨q, x, start, 0, A.lessWithSign end_ start dt⟩

/-! ## `n_step_iterator_impl` -/

/-- `increment`, `iterator/impl/n_step_iterator_impl.hpp:97-110`. -/
def nStepIterator (A : TimeArith T) (st : BasicStepper Q W S T) (start dt : T) (n : ℕ) :
    OdeIterator (ConstIter Q S T) W S T where
  increment i :=
    if i.step < n then do
      let (q, x) ← st.doStep i.q i.x i.t dt
      return { i with q := q, x := x, step := i.step + 1, t := A.add start (A.nmul (i.step + 1) dt) }
    else return { i with atEnd := true }
  atEnd i := i.atEnd
  deref i := (i.x, i.t)

/-- The begin iterator, `iterator/impl/n_step_iterator_impl.hpp:77-81`. -/
def nStepIteratorBegin (q : Q) (x : S) (start : T) : ConstIter Q S T := ⟨q, x, start, 0, false⟩

/-! ## `adaptive_iterator_impl` -/

/-- Fields of `adaptive_iterator_impl< ... , controlled_stepper_tag >`, and the local `trials`. -/
structure AdaptIter (Q S T : Type) where
  q : Q
  x : S
  t : T
  dt : T
  trials : ℕ
  success : Bool
  atEnd : Bool

/-- Body of the `do` loop, `iterator/impl/adaptive_iterator_impl.hpp:117-121` and
`times_iterator_impl.hpp:233-237`. -/
def iterTry (st : ControlledStepper Q W S T) (i : AdaptIter Q S T) : M W (AdaptIter Q S T) := do
  let r ← st.tryStep i.q i.x i.t i.dt
  return { i with q := r.q, x := r.x, t := r.t, dt := r.dt, success := r.success, trials := i.trials + 1 }

/-- The `do ... while` loop with at most 1000 trials and the test behind it,
`iterator/impl/adaptive_iterator_impl.hpp:114-126` and `times_iterator_impl.hpp:227-243`.
The exception is `std::overflow_error`. -/
noncomputable def iterTryLoop (st : ControlledStepper Q W S T) (i : AdaptIter Q S T) :
    M W (AdaptIter Q S T) := do
  let i ← iterTry st { i with trials := 0 }
  let i ← whileM (fun i : AdaptIter Q S T => !i.success && decide (i.trials < 1000)) (iterTry st) i
  if i.trials = 1000 then M.throw .overflow else return i

/-- `increment` for controlled steppers, `iterator/impl/adaptive_iterator_impl.hpp:103-130`. -/
noncomputable def adaptiveIterator (A : TimeArith T) (st : ControlledStepper Q W S T) (end_ : T) :
    OdeIterator (AdaptIter Q S T) W S T where
  increment i :=
    if A.lessWithSign i.t end_ i.dt then
      iterTryLoop st
        { i with dt := if A.lessWithSign end_ (A.add i.t i.dt) i.dt then A.sub end_ i.t else i.dt }
    else return { i with atEnd := true }
  atEnd i := i.atEnd
  deref i := (i.x, i.t)

/-- The begin iterator for controlled steppers, `iterator/impl/adaptive_iterator_impl.hpp:82-87`. -/
def adaptiveIteratorBegin (A : TimeArith T) (q : Q) (x : S) (start end_ dt : T) : AdaptIter Q S T :=
  ⟨q, x, start, dt, 0, true, A.lessWithSign end_ start dt⟩

/-- Fields of `adaptive_iterator_impl< ... , dense_output_stepper_tag >`. -/
structure DenseIter (Q T : Type) where
  q : Q
  t : T
  atEnd : Bool

/-- `increment` for dense output steppers, `iterator/impl/adaptive_iterator_impl.hpp:215-235`. -/
def adaptiveDenseIterator (A : TimeArith T) (st : DenseStepper Q W S T) (end_ : T) :
    OdeIterator (DenseIter Q T) W S T where
  increment i :=
    if A.lessWithSign i.t end_ (st.curDt i.q) then do
      let q ←
        if A.lessWithSign end_ (A.add i.t (st.curDt i.q)) (st.curDt i.q) then
          st.init i.q (st.curState i.q) (st.curTime i.q) (A.sub end_ i.t)
        else pure i.q
      let q ← st.doStep q
      return { i with q := q, t := st.curTime q }
    else return { i with atEnd := true }
  atEnd i := i.atEnd
  deref i := (st.curState i.q, i.t)

/-- The begin iterator for dense output steppers, `iterator/impl/adaptive_iterator_impl.hpp:189-199`. -/
def adaptiveDenseIteratorBegin (A : TimeArith T) (st : DenseStepper Q W S T) (q : Q) (x : S)
    (start end_ dt : T) : M W (DenseIter Q T) :=
  if A.lessEqWithSign start end_ dt then do
    let q ← st.init q x start dt
    return ⟨q, start, false⟩
  else return ⟨q, start, true⟩

/-! ## `times_iterator_impl` -/

/-- Fields of `times_iterator_impl< ... , stepper_tag >`; `rest` is the range `[m_t_start, m_t_end)`. -/
structure TimesIter (Q S T : Type) where
  q : Q
  x : S
  t : T
  dt : T
  rest : List T
  atEnd : Bool

/-- `increment` for plain steppers, `iterator/impl/times_iterator_impl.hpp:107-122`. -/
noncomputable def timesIterator (A : TimeArith T) (st : BasicStepper Q W S T) :
    OdeIterator (TimesIter Q S T) W S T where
  increment i :=
    match i.rest with
    | [] => M.ub
    | [_] => return { i with rest := [], atEnd := true }
    | _ :: next :: rest => do
      let i ← whileM (fun i : TimesIter Q S T => A.lessWithSign i.t next i.dt)
        (fun i => do
          let cdt := A.minAbs i.dt (A.sub next i.t)
          let (q, x) ← st.doStep i.q i.x i.t cdt
          return { i with q := q, x := x, t := A.add i.t cdt }) i
      return { i with rest := next :: rest }
  atEnd i := i.atEnd
  deref i := (i.x, i.t)

/-- The begin iterator; `*t_start` is read also if the range is empty,
`iterator/impl/times_iterator_impl.hpp:84-91`. -/
def timesIteratorBegin (q : Q) (x : S) (times : List T) (dt : T) : M W (TimesIter Q S T) :=
  match times with
  | [] => M.ub
  | t :: rest => return ⟨q, x, t, dt, t :: rest, false⟩

/-- `increment` for controlled steppers, `iterator/impl/times_iterator_impl.hpp:205-243`; the step size of
a clipped step is a local variable and dropped. -/
noncomputable def timesControlledIterator (A : TimeArith T) (st : ControlledStepper Q W S T) :
    OdeIterator (TimesIter Q S T) W S T where
  increment i :=
    match i.rest with
    | [] => M.ub
    | [_] => return { i with rest := [], atEnd := true }
    | _ :: next :: rest => do
      let i ← whileM (fun i : TimesIter Q S T => A.lessWithSign i.t next i.dt)
        (fun i =>
          if A.lessWithSign (A.sub next i.t) i.dt i.dt then do
            let r ← iterTryLoop st ⟨i.q, i.x, i.t, A.sub next i.t, 0, true, false⟩
            return { i with q := r.q, x := r.x, t := r.t }
          else do
            let r ← iterTryLoop st ⟨i.q, i.x, i.t, i.dt, 0, true, false⟩
            return { i with q := r.q, x := r.x, t := r.t, dt := r.dt }) i
      return { i with rest := next :: rest }
  atEnd i := i.atEnd
  deref i := (i.x, i.t)

/-- Fields of the iterators over a grid of times for dense output steppers. -/
structure DenseGridIter (Q S T : Type) where
  q : Q
  x : S
  t : T
  step : ℕ
  rest : List T
  atEnd : Bool

/-- `increment` of `times_iterator_impl` for dense output steppers,
`iterator/impl/times_iterator_impl.hpp:331-351`. -/
noncomputable def timesDenseIterator (A : TimeArith T) (st : DenseStepper Q W S T) (final dt : T) :
    OdeIterator (DenseGridIter Q S T) W S T where
  increment i :=
    match i.rest with
    | [] => M.ub
    | [_] => return { i with rest := [], atEnd := true }
    | _ :: next :: rest => do
      let q ← whileM (fun q => A.lessWithSign (st.curTime q) next dt)
        (fun q => do
          let q ←
            if A.lessWithSign (A.sub final (st.curTime q)) (st.curDt q) (st.curDt q) then
              st.init q (st.curState q) (st.curTime q) (A.sub final (st.curTime q))
            else pure q
          st.doStep q) i.q
      let x ← st.calcState q next
      return { i with q := q, x := x, t := next, rest := next :: rest }
  atEnd i := i.atEnd
  deref i := (i.x, i.t)

/-- The begin iterator of `times_iterator_impl` for dense output steppers; `*t_start` and `*(t_end-1)` are
read also if the range is empty, `iterator/impl/times_iterator_impl.hpp:302-315`. -/
def timesDenseIteratorBegin (st : DenseStepper Q W S T) (q : Q) (x : S) (times : List T) (dt : T) :
    M W (DenseGridIter Q S T) :=
  match times with
  | [] => M.ub
  | t :: rest => do
    let q ← st.init q x t dt
    return ⟨q, x, t, 0, t :: rest, false⟩

/-- The loop advancing a dense output stepper to time `t`, `const_step_iterator_impl.hpp:199-203` and
`n_step_iterator_impl.hpp:208-212`. -/
noncomputable def advanceDense (A : TimeArith T) (st : DenseStepper Q W S T) (t : T) (q : Q) : M W Q :=
  whileM (fun q => A.lessWithSign (st.curTime q) t (st.curDt q)) (fun q => st.doStep q) q

/-- `increment` of `const_step_iterator_impl` for dense output steppers,
`iterator/impl/const_step_iterator_impl.hpp:190-208`. -/
noncomputable def constDenseIterator (A : TimeArith T) (st : DenseStepper Q W S T) (start end_ dt : T) :
    OdeIterator (DenseGridIter Q S T) W S T where
  increment i :=
    if A.lessEqWithSign (A.add i.t dt) end_ dt then do
      let t := A.add start (A.nmul (i.step + 1) dt)
      let q ← advanceDense A st t i.q
      let x ← st.calcState q t
      return { i with q := q, x := x, t := t, step := i.step + 1 }
    else return { i with atEnd := true }
  atEnd i := i.atEnd
  deref i := (i.x, i.t)

/-- The begin iterator, `iterator/impl/const_step_iterator_impl.hpp:160-170`. -/
def constDenseIteratorBegin (A : TimeArith T) (st : DenseStepper Q W S T) (q : Q) (x : S)
    (start end_ dt : T) : M W (DenseGridIter Q S T) :=
  if A.lessEqWithSign start end_ dt then do
    let q ← st.init q x start dt
    return ⟨q, x, start, 0, [], false⟩
  else return ⟨q, x, start, 0, [], true⟩

/-- `increment` of `n_step_iterator_impl` for dense output steppers,
`iterator/impl/n_step_iterator_impl.hpp:200-218`. -/
noncomputable def nStepDenseIterator (A : TimeArith T) (st : DenseStepper Q W S T) (start dt : T) (n : ℕ) :
    OdeIterator (DenseGridIter Q S T) W S T where
  increment i :=
    if i.step < n then do
      let t := A.add start (A.nmul (i.step + 1) dt)
      let q ← advanceDense A st t i.q
      let x ← st.calcState q t
      return { i with q := q, x := x, t := t, step := i.step + 1 }
    else return { i with atEnd := true }
  atEnd i := i.atEnd
  deref i := (i.x, i.t)

/-- The begin iterator, `iterator/impl/n_step_iterator_impl.hpp:173-180`. -/
def nStepDenseIteratorBegin (st : DenseStepper Q W S T) (q : Q) (x : S) (start dt : T) :
    M W (DenseGridIter Q S T) := do
  let q ← st.init q x start dt
  return ⟨q, x, start, 0, [], false⟩

end Verif
