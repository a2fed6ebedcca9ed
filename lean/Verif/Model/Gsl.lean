import Verif.Model.Heap
import Mathlib.Logic.Function.Basic

/-!
# The adapter for `gsl_vector *` (`OI/external/gsl/gsl_wrapper.hpp`)

A state is a pointer to a vector that is allocated and freed by functions of the GNU scientific library, which is not part
of the repository.  The memory is a partial function from addresses to vectors; an address is used only once (reusing the
address of a freed vector could only hide an error, not remove it).  The steppers hold their temporary states in objects
of type `state_wrapper< gsl_vector * >`; these objects are numbered.
-/

namespace Verif
variable {K : Type}

/-- The memory, and the member `m_v` of every `state_wrapper` that exists: `some none` is a pointer that has not been
initialized. -/
structure GslState (K : Type) where
  /-- the vectors that are allocated; the elements of a new vector are not initialized -/
  block : ℕ → Option (List (Option K))
  /-- the addresses that have been used so far are those below -/
  next : ℕ
  /-- `m_v` of the objects that exist -/
  obj : ℕ → Option (Option ℕ)

/-- the beginning of a program -/
def GslState.start : GslState K := ⟨fun _ => none, 0, fun _ => none⟩

/-- `gsl_vector_alloc( n )` -/
def gslAlloc (n : ℕ) : M (GslState K) ℕ := fun s =>
  .ok s.next { s with block := Function.update s.block s.next (some (List.replicate n none)), next := s.next + 1 }

/-- `gsl_vector_free( p )`; undefined behaviour if `p` is not the address of an allocated vector -/
def gslFree (p : Option ℕ) : M (GslState K) Unit := fun s =>
  match p with
  | none => .ub
  | some a => match s.block a with
    | none => .ub
    | some _ => .ok () { s with block := Function.update s.block a none }

/-- `gsl_vector_memcpy( dst , src )`; the error handler for different sizes is not modelled -/
def gslMemcpy (dst src : Option ℕ) : M (GslState K) Unit := fun s =>
  match dst, src with
  | some a, some b => match s.block a, s.block b with
    | some _, some v => .ok () { s with block := Function.update s.block a (some v) }
    | _, _ => .ub
  | _, _ => .ub

/-- the member `m_v` of an object; undefined behaviour if the object does not exist -/
def gslMember (o : ℕ) : M (GslState K) (Option ℕ) := fun s =>
  match s.obj o with
  | none => .ub
  | some p => .ok p s

/-- assign to the member `m_v`, or end the existence of the object -/
def gslSetMember (o : ℕ) (p : Option (Option ℕ)) : M (GslState K) Unit := fun s =>
  .ok () { s with obj := Function.update s.obj o p }

/-- `p->size`; undefined behaviour if there is no vector -/
def gslSize (p : Option ℕ) : M (GslState K) ℕ := fun s =>
  match p with
  | none => .ub
  | some a => match s.block a with
    | none => .ub
    | some v => .ok v.length s

/-- `resize_impl< gsl_vector * , gsl_vector * >::resize( x , y )` for the member of object `o`
(`OI/external/gsl/gsl_wrapper.hpp:184-192`); `n` is `y->size` -/
def gslResize (o : ℕ) (n : ℕ) : M (GslState K) Unit := do
  let p ← gslMember o
  gslFree p
  let a ← gslAlloc n
  gslSetMember o (some (some a))

/-- the constructor `state_wrapper( )` (`OI/external/gsl/gsl_wrapper.hpp:203-206`) -/
def gslConstruct (o : ℕ) : M (GslState K) Unit := do
  let a ← gslAlloc 1
  gslSetMember o (some (some a))

/-- the constructor `state_wrapper( const state_wrapper & )` (`OI/external/gsl/gsl_wrapper.hpp:208-212`): the member is not
initialized before `resize` -/
def gslCopy (o src : ℕ) : M (GslState K) Unit := do
  gslSetMember o (some none)
  let p ← gslMember src
  let n ← gslSize p
  gslResize o n
  let q ← gslMember o
  gslMemcpy q p

/-- the assignment operator, which is not declared and therefore assigns the pointer -/
def gslAssign (o src : ℕ) : M (GslState K) Unit := do
  let p ← gslMember src
  gslSetMember o (some p)

/-- the destructor `~state_wrapper( )` (`OI/external/gsl/gsl_wrapper.hpp:215-218`) -/
def gslDestroy (o : ℕ) : M (GslState K) Unit := do
  let p ← gslMember o
  gslFree p
  gslSetMember o none

/-- what a program can do with the objects -/
inductive GslOp where
  | construct (o : ℕ)
  | resize (o n : ℕ)
  | destroy (o : ℕ)
  | copy (o src : ℕ)
  | assign (o src : ℕ)

def GslOp.run : GslOp → M (GslState K) Unit
  | .construct o => gslConstruct o
  | .resize o n => gslResize o n
  | .destroy o => gslDestroy o
  | .copy o src => gslCopy o src
  | .assign o src => gslAssign o src

/-- the operations of a program, one after the other -/
def gslRun : List GslOp → M (GslState K) Unit
  | [] => pure ()
  | op :: ops => do
      op.run
      gslRun ops

/-! ## The iterators -/

/-- `gsl_vector_iterator`, `const_gsl_vector_iterator` (`OI/external/gsl/gsl_wrapper.hpp:39-91`): `m_p` and `m_stride` -/
structure GslIter where
  p : ℕ
  stride : ℕ

/-- a vector: `data`, `stride` and `size` -/
structure GslVector where
  data : ℕ
  stride : ℕ
  size : ℕ

/-- `gsl_vector_iterator( p )` (`OI/external/gsl/gsl_wrapper.hpp:44,76`) -/
def GslVector.begin (v : GslVector) : GslIter := ⟨v.data, v.stride⟩
/-- `end_iterator( x )` (`OI/external/gsl/gsl_wrapper.hpp:97-109`) -/
def GslVector.end_ (v : GslVector) : GslIter := ⟨v.data + v.stride * v.size, v.stride⟩
/-- `increment( )` (`OI/external/gsl/gsl_wrapper.hpp:52,82`) -/
def GslIter.increment (i : GslIter) : GslIter := ⟨i.p + i.stride, i.stride⟩
/-- `equal( other )` (`OI/external/gsl/gsl_wrapper.hpp:55,85-86,94`) -/
def GslIter.equal (i j : GslIter) : Bool := decide (i.p = j.p)

/-- `for( ; first1 != last1 ; ) op( *first1++ , *first2++ )` (`OI/algebra/detail/for_each.hpp:32-38`) for two vectors; `op`
receives the addresses of the elements -/
noncomputable def gslForEach2 {S : Type} (op : ℕ → ℕ → M S Unit) (v u : GslVector) : M S Unit := do
  let _ ← whileM (fun i => !(Prod.fst i).equal v.end_)
    (fun i => do op i.1.p i.2.p; pure (i.1.increment, i.2.increment)) (v.begin, u.begin)
  pure ()

end Verif
