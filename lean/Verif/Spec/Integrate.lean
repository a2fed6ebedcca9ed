import Verif.Model.Integrate

/-!
# Specification vocabulary for the integrate functions

A user sees an integrate function through the calls it makes: observer calls and stepper calls.
`Event` records both, in order.  The definitions below wrap *arbitrary* (possibly throwing, stateful)
steppers and a recording observer so that the theorems can speak about the complete sequence of calls.
-/

namespace Verif

/-- A call made by an integrate function. -/
inductive Event (S T : Type) where
  /-- the observer is called with `(x,t)` -/
  | obs (x : S) (t : T)
  /-- `do_step` is called with state `x`, time `t`, step size `dt` -/
  | step (x : S) (t dt : T)
  /-- `try_step` is called with state `x`, time `t`, step size `dt`; `success` is its answer -/
  | tried (x : S) (t dt : T) (success : Bool)
  /-- `initialize` of a dense output stepper is called with `(x,t,dt)` -/
  | init (x : S) (t dt : T)
  /-- `calc_state` of a dense output stepper is called for time `t` -/
  | calc (t : T)
  deriving DecidableEq

/-- The log of calls, oldest first. -/
abbrev Log (S T : Type) := List (Event S T)

namespace Log
variable {S T : Type}

/-- The observer calls contained in a log. -/
def observations (l : Log S T) : List (S × T) :=
  l.filterMap fun | .obs x t => some (x, t) | _ => none

/-- The number of `do_step` calls in a log. -/
def stepCount (l : Log S T) : ℕ := l.countP fun | .step .. => true | _ => false

/-- The number of accepted `try_step` calls in a log. -/
def acceptCount (l : Log S T) : ℕ := l.countP fun | .tried _ _ _ true => true | _ => false

end Log

section
variable {Q S T : Type}

/-- The recording observer. -/
def record : Observer (Log S T) S T := fun x t => M.modify (· ++ [.obs x t])

/-- A plain stepper given by an arbitrary function that may throw; its calls are recorded. -/
def loggedBasic (step : Q → S → T → T → Except Err (Q × S)) : BasicStepper Q (Log S T) S T where
  doStep q x t dt := fun w =>
    match step q x t dt with
    | .ok r => .ok r (w ++ [.step x t dt])
    | .error e => .err e (w ++ [.step x t dt])

/-- A controlled stepper given by an arbitrary function that may throw; its answered calls are
recorded. -/
def loggedControlled (tryStep : Q → S → T → T → Except Err (TryResult Q S T)) :
    ControlledStepper Q (Log S T) S T where
  tryStep q x t dt := fun w =>
    match tryStep q x t dt with
    | .ok r => .ok r (w ++ [.tried x t dt r.success])
    | .error e => .err e w

/-- The grid `t0, t0+dt, t0+2*dt, ...` as the library computes it. -/
def gridTime (A : TimeArith T) (start dt : T) (k : ℕ) : T :=
  if k = 0 then start else A.add start (A.nmul k dt)

/-- `X 0, X 1, ..., X n` (stepper state and system state) are successive results of the stepper at times
`time 0, ..., time (n-1)`. -/
def IsTraj (step : Q → S → T → T → Except Err (Q × S)) (time : ℕ → T) (dt : T)
    (X : ℕ → Q × S) (n : ℕ) : Prop :=
  ∀ k < n, step (X k).1 (X k).2 (time k) dt = .ok (X (k + 1))

/-- The calls before grid point `n`: at each earlier grid point an observation followed by a step. -/
def gridCalls (X : ℕ → Q × S) (time : ℕ → T) (dt : T) (n : ℕ) : Log S T :=
  (List.range n).flatMap fun k => [.obs (X k).2 (time k), .step (X k).2 (time k) dt]

end

end Verif
