import Verif.Spec.Integrate
import Verif.Spec.Direction
import Mathlib.Data.List.Chain

/-!
# Specification vocabulary for controlled steppers
(`doc/concepts/controlled_stepper.qbk`)
-/

namespace Verif
variable {Q S T : Type}

/-- The part of the controlled-stepper concept that needs no arithmetic laws: an accepted step advances
the time by exactly the step size it was called with; a rejected step leaves state and time alone. -/
structure TryContract (A : TimeArith T) (tryStep : Q → S → T → T → Except Err (TryResult Q S T)) :
    Prop where
  success_time : ∀ q x t dt r, tryStep q x t dt = .ok r → r.success = true → r.t = A.add t dt
  fail_same : ∀ q x t dt r, tryStep q x t dt = .ok r → r.success = false → r.x = x ∧ r.t = t

/-- The controlled-stepper concept in exact arithmetic: in addition the step size never changes
direction and a rejection never enlarges it. -/
structure ExactContract {K : Type} [Field K] [LinearOrder K] (eps : K)
    (tryStep : Q → S → K → K → Except Err (TryResult Q S K)) : Prop
    extends TryContract (TimeArith.exact K eps) tryStep where
  dir : ∀ q x t dt r, tryStep q x t dt = .ok r → dt ≠ 0 → SameDir dt r.dt
  fail_shrinks : ∀ q x t dt r, tryStep q x t dt = .ok r → r.success = false → |r.dt| ≤ |dt|

/-- `b` is reached from `a` (both `(state, time)`) by one accepted trial with a step size of the direction
of `dt0`, and `b` is not beyond `t1`. -/
def AcceptedStep {K : Type} [Field K] [LinearOrder K]
    (tryStep : Q → S → K → K → Except Err (TryResult Q S K))
    (eps dt0 t1 : K) (a b : S × K) : Prop :=
  ∃ q dt r, tryStep q a.1 a.2 dt = .ok r ∧ r.success = true ∧ r.x = b.1 ∧ r.t = b.2 ∧
    b.2 = a.2 + dt ∧ SameDir dt0 dt ∧ ¬ Beyond eps dt0 b.2 t1

/-- Successive trials inside one step: `Y k` is (stepper state, state, time, step size) before trial
`k`, `R k` the outcome of trial `k`. -/
def IsTrials (tryStep : Q → S → T → T → Except Err (TryResult Q S T)) (Y : ℕ → Q × S × T × T)
    (R : ℕ → TryResult Q S T) (n : ℕ) : Prop :=
  ∀ k < n, tryStep (Y k).1 (Y k).2.1 (Y k).2.2.1 (Y k).2.2.2 = .ok (R k) ∧
    Y (k + 1) = ((R k).q, (R k).x, (R k).t, (R k).dt)

/-- The calls made by trials `0..n-1`. -/
def trialCalls (Y : ℕ → Q × S × T × T) (R : ℕ → TryResult Q S T) (n : ℕ) : Log S T :=
  (List.range n).map fun k => .tried (Y k).2.1 (Y k).2.2.1 (Y k).2.2.2 (R k).success

end Verif
