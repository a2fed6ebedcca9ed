import Verif.Prelude.Res
import Mathlib.Algebra.Module.Basic
import Mathlib.Algebra.BigOperators.Group.List.Basic
import Mathlib.Tactic.Module

/-!
# Memory model for the steppers

odeint's steppers receive states by reference and own private state-valued members.  Which of these
objects coincide (`do_step(sys,x,t,dt)` passes `x` both as input and output) decides whether a step is
computed correctly.  Programs are therefore modelled as computations on a heap of named objects.

A state is an element of an abstract type `V`; the size of a container is part of its value, so resizing a
temporary before it is overwritten is not visible here (the resizers are modelled in `Model/Resizer`).
-/

namespace Verif

/-- The classes that own private objects (`OI/stepper/...`). -/
inductive Owner where
  /-- members of the stepper's base class: `m_dxdt` -/
  | base
  /-- members of an explicit (Runge-Kutta) stepper: `m_x_tmp`, `m_F[i]`, `m_k2`, ... -/
  | rk
  /-- members of `controlled_runge_kutta` that are overwritten in every call -/
  | ctrl
  /-- members of `controlled_runge_kutta` that a FSAL stepper keeps from call to call -/
  | cache
  /-- members of `dense_output_runge_kutta` and `bulirsch_stoer_dense_out` -/
  | dense
  /-- members of the multistep methods -/
  | multi
  /-- members of the corrector of a predictor-corrector method -/
  | corr
  /-- members of `modified_midpoint` -/
  | midp
  /-- members of `extrapolation_stepper` and `bulirsch_stoer` -/
  | extrap
  /-- members of `symplectic_nystroem_stepper_base` -/
  | symp
  /-- members of `velocity_verlet` -/
  | verlet
  /-- members of `rosenbrock4` and `rosenbrock4_controller` that are read again after the call that sets them -/
  | ros
  deriving DecidableEq, Repr

/-- Objects: those of the user and the private members of the stepper classes. -/
inductive Loc where
  | user (n : ℕ)
  | priv (o : Owner) (i : ℕ)
  deriving DecidableEq, Repr

/-- Is the object a member of one of the given classes? -/
def Loc.ownedBy (os : List Owner) : Loc → Prop
  | .user _ => False
  | .priv o _ => o ∈ os

/-- The heap: state-valued objects, and the scalar, boolean and counter members of the steppers;
`world` is everything the user's system function can see and modify. -/
structure Heap (K V W : Type) where
  state : Loc → V
  num : Loc → K
  flag : Loc → Bool
  nat : Loc → ℕ
  world : W

/-- The user's system function `sys(x, dxdt, t)`: it computes the derivative from `x` and `t` and may have
side effects, throw, or not terminate.  Simplification: the object `dxdt` is written only when the call
returns normally. -/
abbrev Sys (K V W : Type) := V → K → M W V

/-- Computations of a stepper. -/
abbrev StepM (K V W α : Type) := M (Heap K V W) α

/-- The linear-combination operations of an algebra on states: `lin [(a1,v1),...,(an,vn)]` is what
`algebra.for_each{n+1}( out , v1 , ... , vn , scale_sum{n}( a1 , ... , an ) )` stores in `out`
(`OI/algebra/default_operations.hpp:59-404`, `OI/algebra/range_algebra.hpp:34-126`; that the element-wise
loop computes this from the *old* values, whatever the aliasing, is proved in `Props/Algebra`). -/
class StateOps (K V : Type) where
  lin : List (K × V) → V

export StateOps (lin)

/-- Exact arithmetic: the linear combination in a module. -/
instance (priority := low) StateOps.exact {K V : Type} [Semiring K] [AddCommMonoid V] [Module K V] :
    StateOps K V := ⟨fun l => (l.map fun p => p.1 • p.2).sum⟩

/-- Element-wise computation with the arithmetic of the component type, whatever it is (floating point
numbers, intervals, ...): `t1 = a1 * t2 + a2 * t3 + ...`, evaluated from left to right
(`OI/algebra/default_operations.hpp:59-404`).  The code never combines zero states. -/
def StateOps.componentwise {K ι : Type} [Add K] [Mul K] [IntCast K] : StateOps K (ι → K) :=
  ⟨fun l i => match l with
    | [] => ((0 : ℤ) : K)
    | p :: l => l.foldl (fun acc q => acc + q.1 * q.2 i) (p.1 * p.2 i)⟩

section Prim
variable {K V W : Type}

/-- Overwrite a state-valued object. -/
def Heap.set (h : Heap K V W) (l : Loc) (v : V) : Heap K V W :=
  { h with state := Function.update h.state l v }

/-- Overwrite a state-valued object; the outside world changes as well. -/
def Heap.put (h : Heap K V W) (l : Loc) (v : V) (w : W) : Heap K V W :=
  ⟨Function.update h.state l v, h.num, h.flag, h.nat, w⟩

/-- Only the outside world changes. -/
def Heap.withWorld (h : Heap K V W) (w : W) : Heap K V W := ⟨h.state, h.num, h.flag, h.nat, w⟩

/-- `sys( src , dst , t )` -/
def callSys (sys : Sys K V W) (src dst : Loc) (t : K) : StepM K V W Unit := fun h =>
  match sys (h.state src) t h.world with
  | .ok v w => .ok () (h.put dst v w)
  | .err e w => .err e (h.withWorld w)
  | .ub => .ub
  | .div => .div

/-- `algebra.for_each{n+1}( dst , s1 , ... , sn , scale_sum{n}( a1 , ... , an ) )` -/
def linTo [StateOps K V] (dst : Loc) (l : List (K × Loc)) : StepM K V W Unit := fun h =>
  .ok () (h.set dst (lin (l.map fun p => (p.1, h.state p.2))))

/-- `boost::numeric::odeint::copy( src , dst )` (`OI/util/copy.hpp:38-90`) -/
def copyTo (src dst : Loc) : StepM K V W Unit := fun h => .ok () (h.set dst (h.state src))

/-- `static_cast< Value >( n )` -/
def lit [IntCast K] (n : ℤ) : K := (n : K)

/-- `static_cast< Value >( p ) / static_cast< Value >( q )` -/
def frac [IntCast K] [Div K] (p q : ℤ) : K := lit p / lit q

end Prim
end Verif
