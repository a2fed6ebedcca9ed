import Verif.Spec.Symplectic
import Verif.Spec.Fsal

/-!
# Histories of calls of velocity_verlet
-/

namespace Verif
variable {K V : Type}

/-- An acceleration that does not depend on the velocity; evaluations are counted. -/
def countAcc (a : V → K → V) : Sys2 K V ℕ := fun q _ t n => .ok (a q t) (n + 1)

/-- The user's coordinates, velocities and an acceleration object. -/
def uq : Loc := .user 0
@[inherit_doc uq] def up : Loc := .user 1
@[inherit_doc uq] def ua : Loc := .user 2

/-- The calls a user can make. -/
inductive VerletCall (K V : Type) where
  /-- `do_step( sys , x , t , dt )` -/
  | step (resized : Bool) (dt : K)
  /-- `initialize( sys , q , p , t )` -/
  | init
  /-- `sys( q , p , a , t ); initialize( a )` -/
  | initAcc
  /-- `reset()` -/
  | reset
  /-- assign a new state and time, then `reset()` -/
  | restart (q p : V) (t : K)
  /-- assign a new state and time, then `initialize( sys , q , p , t )` -/
  | restartInit (q p : V) (t : K)

section
variable [Add K] [Sub K] [Mul K] [Div K] [IntCast K] [StateOps K V]

/-- One call at time `t`; returns the time at which the next call starts. -/
def VerletCall.run (a : V → K → V) (t : K) : VerletCall K V → StepM K V ℕ K
  | .step r dt => do verletDoStep r (countAcc a) uq up t dt; pure (t + dt)
  | .init => do verletInitialize (countAcc a) uq up t; pure t
  | .initAcc => do callSys2 (countAcc a) uq up ua t; verletInitializeAcc ua; pure t
  | .reset => do verletReset; pure t
  | .restart q p t' => do
      (fun h => .ok () ((h.set uq q).set up p) : StepM K V ℕ Unit)
      verletReset; pure t'
  | .restartInit q p t' => do
      (fun h => .ok () ((h.set uq q).set up p) : StepM K V ℕ Unit)
      verletInitialize (countAcc a) uq up t'; pure t'

/-- A history of calls; returns coordinates, velocities and time after each of them. -/
def runVerlet (a : V → K → V) (t : K) : List (VerletCall K V) → StepM K V ℕ (List (V × V × K))
  | [] => pure []
  | c :: cs => do
      let t' ← c.run a t
      let o ← (fun h => .ok (h.state uq, h.state up, t') h : StepM K V ℕ (V × V × K))
      let os ← runVerlet a t' cs
      pure (o :: os)

/-- The velocity Verlet step with both accelerations evaluated in the step, on values. -/
def verletValue (a : V → K → V) (q p : V) (t dt : K) : V × V :=
  let q' := lin [(lit 1, q), (lit 1 * dt, p), (frac 1 2 * dt * dt, a q t)]
  (q', lin [(lit 1, p), (frac 1 2 * dt, a q t), (frac 1 2 * dt, a q' (t + dt))])

/-- What each call should do with coordinates, velocities and time. -/
def VerletCall.value (a : V → K → V) (s : V × V × K) : VerletCall K V → V × V × K
  | .step _ dt =>
      ((verletValue a s.1 s.2.1 s.2.2 dt).1, (verletValue a s.1 s.2.1 s.2.2 dt).2, s.2.2 + dt)
  | .init | .initAcc | .reset => s
  | .restart q p t => (q, p, t)
  | .restartInit q p t => (q, p, t)

/-- The trace of a history, on values. -/
def verletTrace (a : V → K → V) (s : V × V × K) : List (VerletCall K V) → List (V × V × K)
  | [] => []
  | c :: cs => c.value a s :: verletTrace a (c.value a s) cs

/-- The stepper's cached acceleration, if there is one, belongs to the current coordinates and time. -/
def AccValid (a : V → K → V) (t : K) (h : Heap K V ℕ) : Prop :=
  h.flag mVerletFirst = false → h.state (currentAcc (h.flag mCurrentA1)) = a (h.state uq) t

/-- The map of phase space performed by the first `do_step( a , x , t , dt )` of a new stepper. -/
def verletMap (a : V → K → V) (t dt : K) (z : V × V) : V × V :=
  phaseOf z (verletDoStep false (fun q _ t => pure (a q t)) (.user 0) (.user 1) t dt (phaseHeap z))

end
end Verif
