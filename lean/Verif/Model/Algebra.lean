import Verif.Model.ControlledRk
import Mathlib.Logic.Function.Basic

/-!
# The algebras, component by component

The steppers' model treats `for_eachN( out , s1 , ... , sn , scale_sumN )` as one assignment to `out`.  Here the
loops themselves are modelled, on a memory of containers with components, so that aliasing of the arguments,
containers of different sizes and the interleaving of parallel loops can be expressed.

The functors of `default_operations` receive references to components.  They are modelled as lists of atomic
actions (load the component an argument refers to, store a value computed from what was loaded), in the order
of the C++ statements.
-/

namespace Verif
variable {ι K : Type}

/-- Memory: the components of every container. -/
abbrev Mem (ι K : Type) := ι → List K

/-- A reference to (or an iterator at) component `r.2` of container `r.1`. -/
abbrev Cell (ι : Type) := ι × ℕ

/-- The atomic actions of a functor. -/
inductive Action (K : Type) where
  /-- read the component that argument `j` refers to; the value is appended to the values read before -/
  | load (j : ℕ)
  /-- write a value computed from the values read so far to the component that argument `j` refers to -/
  | store (j : ℕ) (f : List K → K)

/-- Execute one action of a functor called with the references `refs`; `none` is undefined behaviour (a
reference beyond the end of its container). -/
def Action.exec [DecidableEq ι] (refs : List (Cell ι)) :
    Action K → Mem ι K × List K → Option (Mem ι K × List K)
  | .load j, (m, regs) => do
      let r ← refs[j]?
      let v ← (m r.1)[r.2]?
      some (m, regs ++ [v])
  | .store j f, (m, regs) => do
      let r ← refs[j]?
      if r.2 < (m r.1).length then some (Function.update m r.1 ((m r.1).set r.2 (f regs)), regs) else none

/-- What a loop over components executes: it enters the functor's body, or executes one of its actions. -/
inductive Instr (ι K : Type) where
  | enter
  | act (refs : List (Cell ι)) (a : Action K)

/-- Execute one instruction. -/
def Instr.exec [DecidableEq ι] : Instr ι K → Mem ι K × List K → Option (Mem ι K × List K)
  | .enter, s => some (s.1, [])
  | .act refs a, s => a.exec refs s

/-- Execute instructions one after the other. -/
def runInstrs [DecidableEq ι] : List (Instr ι K) → Mem ι K × List K → Option (Mem ι K × List K)
  | [], s => some s
  | i :: is, s => i.exec s >>= runInstrs is

/-- The instructions of one call `op( refs )`. -/
def callInstrs (op : List (Action K)) (refs : List (Cell ι)) : List (Instr ι K) :=
  .enter :: op.map (.act refs)

/-- One call `op( refs )`. -/
def callOp [DecidableEq ι] (op : List (Action K)) (refs : List (Cell ι)) : M (Mem ι K) Unit := fun m =>
  match runInstrs (callInstrs op refs) (m, []) with
  | some s => .ok () s.1
  | none => .ub

/-! ## The functors of `default_operations` -/

section Ops
variable [Add K] [Mul K]

/-- `m_alpha1 * t2 + m_alpha2 * t3 + ...`, from left to right
(`OI/algebra/default_operations.hpp:59-404`); there is always at least one summand. -/
def scaleSumValue [IntCast K] (alphas vals : List K) : K :=
  match alphas.zip vals with
  | [] => lit 0
  | p :: ps => ps.foldl (fun acc q => acc + q.1 * q.2) (p.1 * p.2)

/-- `scale_sum1` ... `scale_sum14` (`OI/algebra/default_operations.hpp:59-404`): argument 0 is the output -/
def scaleSumOp [IntCast K] (alphas : List K) : List (Action K) :=
  (List.range alphas.length).map (fun j => .load (j + 1)) ++ [.store 0 (scaleSumValue alphas)]

/-- `scale( alpha )`: `t1 *= m_alpha1` (`OI/algebra/default_operations.hpp:43-57`) -/
def scaleOp [IntCast K] (alpha : K) : List (Action K) :=
  [.load 0, .store 0 (fun v => v.headD (lit 0) * alpha)]

/-- `scale_sum_swap2` (`OI/algebra/default_operations.hpp:406-424`): `tmp( t1 ); t1 = a1 * t2 + a2 * t3; t2 = tmp` -/
def scaleSumSwap2Op [IntCast K] (a1 a2 : K) : List (Action K) :=
  [.load 0, .load 1, .load 2, .store 0 (fun v => scaleSumValue [a1, a2] v.tail),
    .store 1 (fun v => v.headD (lit 0))]

/-- `rel_error` (`OI/algebra/default_operations.hpp:431-446`), for plain numbers -/
def relErrorOp [Div K] [IntCast K] (O : NumOps K) (epsAbs epsRel aX aDxdt : K) : List (Action K) :=
  [.load 0, .load 1, .load 2, .store 0 (fun v =>
    relError O epsAbs epsRel aX aDxdt (v.getD 0 (lit 0)) (v.getD 1 (lit 0)) (v.getD 2 (lit 0)))]

end Ops

/-! ## The loops -/

section Loops
variable [DecidableEq ι]

/-- `detail::for_eachN( first1 , last1 , first2 , ... , op )` (`OI/algebra/detail/for_each.hpp:25-190`):
`for( ; first1 != last1 ; ) op( *first1++ , *first2++ , ... );`.  The iterators are the list `its`, the first one
is the one that is compared. -/
noncomputable def forEachIter (op : List (Action K)) (its : List (Cell ι)) (last1 : Cell ι) :
    M (Mem ι K) Unit := do
  let _ ← whileM (fun its => decide (its.head? ≠ some last1))
    (fun its => do callOp op its; pure (its.map fun r => (r.1, r.2 + 1))) its
  pure ()

/-- `range_algebra::for_eachN( s1 , ... , sN , op )` (`OI/algebra/range_algebra.hpp:34-126`): from the beginning
to the end of the first container; `multi_array_algebra` does the same on the elements of the arrays
(`OI/algebra/multi_array_algebra.hpp:37-125`). -/
noncomputable def rangeForEach (op : List (Action K)) (s1 : ι) (ss : List ι) : M (Mem ι K) Unit := fun m =>
  forEachIter op ((s1 :: ss).map fun c => (c, 0)) (s1, (m s1).length) m

/-- `array_algebra::for_eachN( s1 , ... , sN , op )` for arrays of dimension `dim`
(`OI/algebra/array_algebra.hpp:35-272`): `for( size_t i=0 ; i<dim ; ++i ) op( s1[i] , ... , sN[i] );` -/
noncomputable def arrayForEach (dim : ℕ) (op : List (Action K)) (ss : List ι) : M (Mem ι K) Unit := do
  let _ ← whileM (fun i => decide (i < dim))
    (fun i => do callOp op (ss.map fun c => (c, i)); pure (i + 1)) 0
  pure ()

/-- `copy( from , to )` for ranges (`OI/util/copy.hpp:38-41`, `boost::range::copy`, that is `std::copy` to
`begin( to )`); beyond the end of `to` the behaviour is undefined. -/
noncomputable def rangeCopy [IntCast K] (src dst : ι) : M (Mem ι K) Unit := fun m =>
  forEachIter [.load 0, .store 1 (fun v => v.headD (lit 0))] [(src, 0), (dst, 0)] (src, (m src).length) m

end Loops
end Verif
