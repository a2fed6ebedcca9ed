import Verif.Model.RungeKutta

/-!
# Histories of calls of a FSAL stepper

A user program that owns states, derivative objects and error objects (three disjoint families of user
objects) and makes an arbitrary sequence of calls of one `runge_kutta_dopri5` object, each starting from the
state and time reached by the previous one.
-/

namespace Verif
variable {K V : Type}

/-- The user's state number `n`. -/
def ustate (n : ℕ) : Loc := .user (3 * n)
/-- The user's derivative object number `n`. -/
def uderiv (n : ℕ) : Loc := .user (3 * n + 1)
/-- The user's error object number `n`. -/
def uerr (n : ℕ) : Loc := .user (3 * n + 2)

/-- A right-hand side `f` without side effects, except that evaluations are counted. -/
def countSys (f : V → K → V) : Sys K V ℕ := fun x t n => .ok (f x t) (n + 1)

/-- The calls a user can make.  `resized` says whether the stepper's resizer reports a resize. -/
inductive FsalCall (K V : Type) where
  /-- `do_step( sys , x , t , dt )` -/
  | step (resized : Bool) (dt : K)
  /-- `do_step( sys , x , t , out , dt )`; the next call continues with `out` -/
  | stepOut (resized : Bool) (out : ℕ) (dt : K)
  /-- `do_step( sys , x , t , dt , xerr )` -/
  | stepErr (resized : Bool) (dt : K) (err : ℕ)
  /-- `do_step( sys , x , t , out , dt , xerr )` -/
  | stepOutErr (resized : Bool) (out : ℕ) (dt : K) (err : ℕ)
  /-- `sys( x , dxdt , t ); do_step( sys , x , dxdt , t , dt )` -/
  | stepGiven (deriv : ℕ) (dt : K)
  /-- `sys( x , dxdt , t ); do_step( sys , x , dxdt , t , out , dxdt_out , dt )` -/
  | stepGivenOut (deriv : ℕ) (out derivOut : ℕ) (dt : K)
  /-- `initialize( sys , x , t )` -/
  | init
  /-- `reset()` -/
  | reset
  /-- assign a new state and time and call `reset()` -/
  | restart (x : V) (t : K)
  /-- assign a new state and time and call `initialize( sys , x , t )` -/
  | restartInit (x : V) (t : K)

section
variable [Add K] [Sub K] [Mul K] [Div K] [IntCast K] [StateOps K V]

/-- One call, made with the current state object `x` at time `t`; returns the object and the time at which the
next call starts. -/
def FsalCall.run (f : V → K → V) (x : ℕ) (t : K) : FsalCall K V → StepM K V ℕ (ℕ × K)
  | .step r dt => do
      fsalStep1 dopri5Impl r (countSys f) (ustate x) t dt; pure (x, t + dt)
  | .stepOut r o dt => do
      fsalStep3 dopri5Impl r (countSys f) (ustate x) t (ustate o) dt; pure (o, t + dt)
  | .stepErr r dt e => do
      fsalStep5 dopri5ErrImpl r (countSys f) (ustate x) t dt (uerr e); pure (x, t + dt)
  | .stepOutErr r o dt e => do
      fsalStep7 dopri5ErrImpl r (countSys f) (ustate x) t (ustate o) dt (uerr e); pure (o, t + dt)
  | .stepGiven d dt => do
      callSys (countSys f) (ustate x) (uderiv d) t
      fsalStep2 dopri5Impl (countSys f) (ustate x) (uderiv d) t dt; pure (x, t + dt)
  | .stepGivenOut d o d' dt => do
      callSys (countSys f) (ustate x) (uderiv d) t
      fsalStep4 dopri5Impl (countSys f) (ustate x) (uderiv d) t (ustate o) (uderiv d') dt; pure (o, t + dt)
  | .init => do fsalInitialize (countSys f) (ustate x) t; pure (x, t)
  | .reset => do fsalReset; pure (x, t)
  | .restart v t' => do
      (fun h => .ok () (h.set (ustate x) v) : StepM K V ℕ Unit)
      fsalReset; pure (x, t')
  | .restartInit v t' => do
      (fun h => .ok () (h.set (ustate x) v) : StepM K V ℕ Unit)
      fsalInitialize (countSys f) (ustate x) t'; pure (x, t')

/-- What the user sees after a call: all states and error objects, and the time. -/
def Observation (K V : Type) := (ℕ → V) × (ℕ → V) × K

/-- A history of calls; returns what the user sees after each of them. -/
def runCalls (f : V → K → V) (x : ℕ) (t : K) : List (FsalCall K V) → StepM K V ℕ (List (Observation K V))
  | [] => pure []
  | c :: cs => do
      let (x', t') ← c.run f x t
      let o ← (fun h => .ok (fun n => h.state (ustate n), fun n => h.state (uerr n), t') h :
        StepM K V ℕ (Observation K V))
      let os ← runCalls f x' t' cs
      pure (o :: os)

/-- The same history with the derivative evaluated afresh before every call, by calling `reset()` first. -/
def runFresh (f : V → K → V) (x : ℕ) (t : K) : List (FsalCall K V) → StepM K V ℕ (List (Observation K V))
  | [] => pure []
  | c :: cs => do
      fsalReset
      let (x', t') ← c.run f x t
      let o ← (fun h => .ok (fun n => h.state (ustate n), fun n => h.state (uerr n), t') h :
        StepM K V ℕ (Observation K V))
      let os ← runFresh f x' t' cs
      pure (o :: os)

/-- The stepper's cached derivative, if there is one, is the right-hand side at the given state and time. -/
def CacheValid (f : V → K → V) (x : ℕ) (t : K) (h : Heap K V ℕ) : Prop :=
  h.flag mFirstCall = false → h.state mDxdt = f (h.state (ustate x)) t

end
end Verif
