import Verif.Spec.ControlledRk
import Verif.Spec.Fsal

/-! # Histories of calls to a controlled FSAL stepper -/

namespace Verif
variable {K V : Type} [Add K] [Sub K] [Mul K] [Div K] [IntCast K] [StateOps K V]

/-- What the user of a controlled FSAL stepper can do with the state `x` at time `t`. -/
inductive CtrlCall (K V : Type) where
  /-- `try_step( sys , x , t , dt )` -/
  | tryStep (resized : Bool) (dt : K)
  /-- `initialize( sys , x , t )` -/
  | init
  /-- `reset()` -/
  | reset
  /-- assign a new state and time, then `reset()` -/
  | restart (v : V) (t : K)
  /-- assign a new state and time, then `initialize( sys , x , t )` -/
  | restartInit (v : V) (t : K)

/-- the time afterwards, and the result of the call if it was a `try_step` -/
def CtrlCall.run (P : CtrlParams K V) (f : V → K → V) (x : ℕ) (t : K) :
    CtrlCall K V → StepM K V ℕ (K × Option (TryOut K))
  | .tryStep r dt => do
      let o ← fsalTry1 P dopri5ErrImpl r (countSys f) (.user x) t dt
      pure (o.t, some o)
  | .init => do fsalCtrlInitialize (countSys f) (.user x) t; pure (t, none)
  | .reset => do fsalCtrlReset; pure (t, none)
  | .restart v t' => do (fun h => .ok () (h.set (.user x) v) : StepM K V ℕ Unit); fsalCtrlReset; pure (t', none)
  | .restartInit v t' => do (fun h => .ok () (h.set (.user x) v) : StepM K V ℕ Unit); fsalCtrlInitialize (countSys f) (.user x) t'; pure (t', none)

/-- what the user sees after a call: the result, the time and the state -/
abbrev CtrlObs (K V : Type) := Option (TryOut K) × K × V

/-- A history of calls. -/
def runCtrl (P : CtrlParams K V) (f : V → K → V) (x : ℕ) : K → List (CtrlCall K V) →
    StepM K V ℕ (List (CtrlObs K V))
  | _, [] => pure []
  | t, c :: cs => do
      let (t', o) ← c.run P f x t
      let ob ← ((fun h => .ok (o, t', h.state (.user x)) h) : StepM K V ℕ (CtrlObs K V))
      let obs ← runCtrl P f x t' cs
      pure (ob :: obs)

/-- The same history without caching: `reset()` before every call, so that the derivative is evaluated afresh. -/
def runCtrlFresh (P : CtrlParams K V) (f : V → K → V) (x : ℕ) : K → List (CtrlCall K V) →
    StepM K V ℕ (List (CtrlObs K V))
  | _, [] => pure []
  | t, c :: cs => do
      fsalCtrlReset
      let (t', o) ← c.run P f x t
      let ob ← ((fun h => .ok (o, t', h.state (.user x)) h) : StepM K V ℕ (CtrlObs K V))
      let obs ← runCtrlFresh P f x t' cs
      pure (ob :: obs)

/-- The cached derivative, if there is one, is the right-hand side at the given state and time. -/
def CtrlCacheValid (f : V → K → V) (x : ℕ) (t : K) (h : Heap K V ℕ) : Prop :=
  h.flag mCtrlFirst = false → h.state mCtrlDxdt = f (h.state (.user x)) t

end Verif
