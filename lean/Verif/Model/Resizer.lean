import Verif.Model.Algebra
import Verif.Model.RungeKutta

/-!
# Containers that have a size: the resizers

Memory of containers (as in `Model/Algebra`) together with the `m_initialized` members of the resizers.  The stepper
modelled on this level is `runge_kutta4_classic`, which has two resizers (one in the base class for `m_dxdt`, one
for its four temporaries); the state type is a resizeable container (`std::vector`) or one that is not
(`std::array`).
-/

namespace Verif
variable {K : Type}

/-- The containers, and the member `m_initialized` of every resizer object. -/
structure SizedMem (K : Type) where
  mem : Mem Loc K
  initialized : Loc → Bool

/-- The resizer classes (`OI/util/resizer.hpp:47-83`). -/
inductive Policy where
  | always
  | initially
  | never
  deriving DecidableEq

/-- `std::vector::resize( n )`: the elements up to the smaller size are kept, new elements are value-initialized -/
def vecResize [IntCast K] (v : List K) (n : ℕ) : List K := v.take n ++ List.replicate (n - v.length) (lit 0)

def SizedMem.set (s : SizedMem K) (l : Loc) (v : List K) : SizedMem K := ⟨Function.update s.mem l v, s.initialized⟩

/-- `adjust_size_by_resizeability( dst , x , is_resizeable )` (`OI/util/resizer.hpp:29-44`), with `same_size` and
`resize` for ranges (`OI/util/same_size.hpp:38-45`, `OI/util/resize.hpp:38-45`) -/
def adjustSizeByResizeability [IntCast K] (resizeable : Bool) (dst x : Loc) : M (SizedMem K) Bool := fun s =>
  if resizeable then
    if (s.mem dst).length ≠ (s.mem x).length then
      .ok true (s.set dst (vecResize (s.mem dst) (s.mem x).length))
    else .ok false s
  else .ok false s

/-- A `resize_impl` (e.g. `OI/stepper/runge_kutta4_classic.hpp:148-157`): `resized |= adjust_size_by_resizeability(
member , x , ... )` for each member -/
def resizeMembers [IntCast K] (resizeable : Bool) (x : Loc) : List Loc → M (SizedMem K) Bool
  | [] => pure false
  | l :: ls => do
      let r ← adjustSizeByResizeability resizeable l x
      let rs ← resizeMembers resizeable x ls
      pure (r || rs)

/-- `m_resizer.adjust_size( x , f )` (`OI/util/resizer.hpp:47-83`); `res` is the resizer object -/
def Policy.adjustSize (p : Policy) (res : Loc) (f : M (SizedMem K) Bool) : M (SizedMem K) Bool :=
  match p with
  | .always => f
  | .initially => fun s =>
      if s.initialized res = false then f ⟨s.mem, Function.update s.initialized res true⟩ else .ok false s
  | .never => pure false

/-- the two resizer objects of `runge_kutta4_classic` -/
def baseResizer : Loc := .priv .base 0
def rkResizer : Loc := .priv .rk 0

/-- the members that the resizer of `runge_kutta4_classic` handles -/
def rk4Temporaries : List Loc := [mXTmp, mDxm, mDxt, mDxh]

/-- Run a loop of the algebra. -/
def onMem {α : Type} (p : M (Mem Loc K) α) : M (SizedMem K) α := fun s =>
  match p s.mem with
  | .ok a m => .ok a ⟨m, s.initialized⟩
  | .err e m => .err e ⟨m, s.initialized⟩
  | .ub => .ub
  | .div => .div

/-- `algebra.for_eachN( dst , ... , scale_sum( ... ) )` with `range_algebra` -/
noncomputable def forEachLin [Add K] [Mul K] [IntCast K] (dst : Loc) (l : List (K × Loc)) : M (SizedMem K) Unit :=
  onMem (rangeForEach (scaleSumOp (l.map Prod.fst)) dst (l.map Prod.snd))

/-- The user's system function, writing `dxdt[i]` for every `i < x.size()`; writing beyond the end of `dxdt` is
undefined behaviour.  `f x t` is a list of the same size as `x`. -/
def callSysSized (f : List K → K → List K) (src dst : Loc) (t : K) : M (SizedMem K) Unit := fun s =>
  if (s.mem src).length ≤ (s.mem dst).length then
    .ok () (s.set dst (f (s.mem src) t ++ (s.mem dst).drop (s.mem src).length))
  else .ub

section Stepper
variable [Add K] [Sub K] [Mul K] [Div K] [IntCast K]

/-- `runge_kutta4_classic::do_step_impl` (`OI/stepper/runge_kutta4_classic.hpp:84-134`), with resizing -/
noncomputable def rk4SizedImpl (p : Policy) (resizeable : Bool) (f : List K → K → List K) (inp dxdt : Loc) (t : K)
    (out : Loc) (dt : K) : M (SizedMem K) Unit := do
  let _ ← p.adjustSize rkResizer (resizeMembers resizeable inp rk4Temporaries)
  let dh := dt / lit 2
  let th := t + dh
  forEachLin mXTmp [(lit 1, inp), (dh, dxdt)]
  callSysSized f mXTmp mDxt th
  forEachLin mXTmp [(lit 1, inp), (dh, mDxt)]
  callSysSized f mXTmp mDxm th
  forEachLin mXTmp [(lit 1, inp), (dt, mDxm)]
  callSysSized f mXTmp mDxh (t + dt)
  let dt6 := dt / lit 6
  let dt3 := dt / lit 3
  forEachLin out [(lit 1, inp), (dt6, dxdt), (dt3, mDxt), (dt3, mDxm), (dt6, mDxh)]

/-- `do_step( sys , in , t , out , dt )` (`OI/stepper/base/explicit_stepper_base.hpp:161-168`); with `out = in` it is
`do_step( sys , x , t , dt )` (`:224-230`) -/
noncomputable def rk4SizedStep (p : Policy) (resizeable : Bool) (f : List K → K → List K) (inp : Loc) (t : K)
    (out : Loc) (dt : K) : M (SizedMem K) Unit := do
  let _ ← p.adjustSize baseResizer (resizeMembers resizeable inp [mDxdt])
  callSysSized f inp mDxdt t
  rk4SizedImpl p resizeable f inp mDxdt t out dt

/-- `adjust_size( x )` (`OI/stepper/runge_kutta4_classic.hpp:136-141`): the resizers are not asked -/
def rk4SizedAdjust (resizeable : Bool) (x : Loc) : M (SizedMem K) Unit := do
  let _ ← resizeMembers resizeable x rk4Temporaries
  let _ ← resizeMembers resizeable x [mDxdt]
  pure ()

end Stepper

/-! ## Calls -/

/-- What a user does with the stepper: make a step from the state object `inp` to `out`, call `adjust_size( x )`, or
assign a new value (of any size) to one of their own containers. -/
inductive SizedCall (K : Type) where
  | step (f : List K → K → List K) (inp : ℕ) (t : K) (out : ℕ) (dt : K)
  | adjust (x : ℕ)
  | assign (x : ℕ) (v : List K)

/-- Execute a call. -/
noncomputable def SizedCall.run [Add K] [Sub K] [Mul K] [Div K] [IntCast K] (p : Policy) (resizeable : Bool) :
    SizedCall K → M (SizedMem K) Unit
  | .step f inp t out dt => rk4SizedStep p resizeable f (.user inp) t (.user out) dt
  | .adjust x => rk4SizedAdjust resizeable (.user x)
  | .assign x v => fun s => .ok () (s.set (.user x) v)

end Verif
