import Verif.Model.Steppers
import Verif.Spec.ButcherTableau
import Mathlib.Analysis.Calculus.Deriv.Basic
import Mathlib.Analysis.Calculus.ContDiff.Basic
import Mathlib.Analysis.Asymptotics.Lemmas

/-! # The order of a one-step method -/

namespace Verif
open Topology Asymptotics

variable {K V W : Type}

/-- Every call of the system function returns `f x t`; it may have side effects. -/
def Evaluates (sys : Sys K V W) (f : V → K → V) : Prop := ∀ x t w, ∃ w', sys x t w = .ok (f x t) w'

/-- Called with state `x0` in `x` (and `pre` about the stepper's own memory), the run with step size `h` returns and leaves `step h`
in `out`. -/
def StepsTo (pre : Heap K V W → Prop) (run : K → StepM K V W Unit) (x : Loc) (x0 : V) (out : Loc) (step : K → V) : Prop :=
  ∀ h heap, pre heap → heap.state x = x0 → ∃ heap', run h heap = .ok () heap' ∧ heap'.state out = step h

variable [NormedAddCommGroup V] [NormedSpace ℝ V]

/-- `φ` solves the initial value problem `x' = f(x,t)`, `x(t0) = x0` in a neighbourhood of `t0`. -/
structure IsSolution (f : V → ℝ → V) (x0 : V) (t0 : ℝ) (φ : ℝ → V) : Prop where
  start : φ t0 = x0
  deriv : ∀ᶠ t in 𝓝 t0, HasDerivAt φ (f (φ t) t) t

/-- `f` is `p` times continuously differentiable in state and time, near `(x0,t0)`. -/
def SmoothAt (f : V → ℝ → V) (p : ℕ) (x0 : V) (t0 : ℝ) : Prop := ContDiffAt ℝ p (fun z : V × ℝ => f z.1 z.2) (x0, t0)

/-- The results `step h` of steps of size `h` differ from the solution by `O(h^(p+1))`. -/
def LocalOrder (p : ℕ) (step : ℝ → V) (t0 : ℝ) (φ : ℝ → V) : Prop :=
  (fun h => step h - φ (t0 + h)) =O[𝓝 0] fun h : ℝ => h ^ (p + 1)

end Verif
