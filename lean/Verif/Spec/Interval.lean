import Verif.Spec.ControlledRun
import Verif.Spec.DenseRun
import Mathlib.Order.Interval.Set.UnorderedInterval

/-! # Where the right-hand side is evaluated -/

namespace Verif
variable {K V W α : Type}

/-- A call uses the system function only at the times in `I`: whatever the system function does at other times - other values, exceptions, side
effects, undefined behaviour - makes no difference to the call. -/
def UsesOnly (I : Set K) (call : Sys K V W → α) : Prop := ∀ sys sys' : Sys K V W, (∀ t ∈ I, ∀ x, sys x t = sys' x t) → call sys = call sys'

variable [Field K] [LinearOrder K]

/-- The times of one step: all times between `t` and `t + dt`, whatever the sign of `dt` is. -/
def duringStep (t dt : K) : Set K := Set.uIcc t (t + dt)

/-- The times between `t0` and `t1` in the direction of `dt`; `t1` may be exceeded by `tol`.  There are none if `t1` is behind `t0` by more. -/
def during (tol dt t0 t1 : K) : Set K := if 0 < dt then Set.Icc t0 (t1 + tol) else Set.Icc (t1 - tol) t0

/-- The times between two of the given times. -/
def duringTimes (times : List K) : Set K := {τ | ∃ a ∈ times, ∃ b ∈ times, a ≤ τ ∧ τ ≤ b}

/-- The parameters of a stepper that allow it to stay inside its step: the nodes of a user-supplied tableau are between 0 and 1, and
`modified_midpoint` is constructed with a sensible number of intervals. -/
def ExplicitStepper.Inside : ExplicitStepper K → Prop
  | .generic T => ∀ c ∈ T.c, 0 ≤ c ∧ c ≤ 1
  | .midpoint m => 1 ≤ m ∧ m < 65536
  | _ => True

/-- The same for steppers with error estimate. -/
def ErrorStepper.Inside : ErrorStepper K → Prop
  | .generic T _ => ∀ c ∈ T.c, 0 ≤ c ∧ c ≤ 1
  | _ => True

/-- What an integration in the direction of `dt` needs of the step adjuster and the test of the error: steps never change their direction, and
rejected steps are not enlarged. -/
structure CtrlParams.Sensible (P : CtrlParams K V) (dt : K) : Prop where
  increase : ∀ d e, SameDir dt d → P.gtOne e = false → SameDir dt (P.adjuster.increaseStep d e P.stepperOrder)
  decrease : ∀ d e, SameDir dt d → P.gtOne e = true →
    SameDir dt (P.adjuster.decreaseStep d e P.errorOrder) ∧ |P.adjuster.decreaseStep d e P.errorOrder| ≤ |d|
  limit : ∀ d, SameDir dt d → P.adjuster.checkStepSizeLimit d = false → SameDir dt P.adjuster.maxDt ∧ |P.adjuster.maxDt| ≤ |d|

end Verif
