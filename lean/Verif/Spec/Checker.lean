import Verif.Spec.Dense
import Verif.Spec.Controlled

/-!
# Specification vocabulary for runs with a `max_step_checker`
-/

namespace Verif
variable {Q S T α V : Type}

/-- A step in the sense of the step checker: a `do_step`, or an accepted `try_step`. -/
def Event.isWork : Event S T → Bool
  | .step .. => true
  | .tried _ _ _ s => s
  | _ => false

/-- Is the event an observer call? -/
def Event.isObs : Event S T → Bool
  | .obs .. => true
  | _ => false

/-- The number of steps made since the last observer call (or the beginning). -/
def Log.sinceObs (l : Log S T) : ℕ :=
  (l.reverse.takeWhile fun e => !e.isObs).countP Event.isWork

/-- There are never more than `m` steps between two observer calls. -/
def Log.Within (m : ℕ) (l : Log S T) : Prop := ∀ p : Log S T, p <+: l → p.sinceObs ≤ m

/-- The run `r` goes through the sequence of calls `l` (if it ends at all). -/
def Passes (l : Log S T) : Res (Log S T) α → Prop
  | .ok _ w => l <+: w
  | .err _ w => l <+: w
  | .ub => True
  | .div => True

/-- How a checked run `r'` (limit `m`) is related to the unchecked run `r`.  `log` extracts the recorded
calls from the world of the checked run.  `Next p l` says that the checker throws after the calls `p`
when the unchecked run goes on to `l`. -/
structure CheckedSpec (m : ℕ) (log : V → Log S T) (Next : Log S T → Log S T → Prop) (r' : Res V α)
    (r : Res (Log S T) α) : Prop where
  /-- a checked run that returns has made exactly the calls of the unchecked run, never more than `m`
  steps between two observer calls, and returns the same value -/
  ok : ∀ a v, r' = .ok a v → r = .ok a (log v) ∧ (log v).Within m
  /-- as long as there are at most `m` steps between two observer calls, the checker does not interfere -/
  transparent : ∀ a l, r = .ok a l → l.Within m → ∃ v, r' = .ok a v ∧ log v = l
  /-- otherwise it throws at the `m+1`-st step -/
  overflow : ∀ a l, r = .ok a l → ¬ l.Within m →
    ∃ v, ∃ p : Log S T, r' = .err .noProgress v ∧ Next (log v) p ∧ p.sinceObs = m + 1 ∧ p <+: l
  /-- an exception of the checked run is an exception of the unchecked run, or comes from the checker at
  the `m+1`-st step since the last observer call -/
  throws : ∀ e v, r' = .err e v → r = .err e (log v) ∨
    (e = .noProgress ∧ ∃ p : Log S T, Next (log v) p ∧ p.sinceObs = m + 1 ∧ Passes p r)
  /-- the checked run diverges only if the unchecked one does -/
  div : r' = .div → r = .div
  /-- a diverging unchecked run diverges or is stopped by the checker -/
  div' : r = .div → r' = .div ∨ ∃ v, ∃ p : Log S T, r' = .err .noProgress v ∧ Next (log v) p ∧ p.sinceObs = m + 1

/-- A controlled stepper whose internal state does not influence its results. -/
def Stateless (f : Q → S → T → T → Except Err (TryResult Q S T)) : Prop :=
  ∀ q q' x t dt, (f q x t dt).map (fun r => (r.x, r.t, r.dt, r.success)) =
    (f q' x t dt).map (fun r => (r.x, r.t, r.dt, r.success))

end Verif
