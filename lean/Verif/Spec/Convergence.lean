import Verif.Spec.Order
import Verif.Spec.Integrate
import Verif.Spec.Direction

/-! # Steppers inside the integrate functions, and convergence -/

namespace Verif
variable {K V W : Type}

/-- A stepper object as the integrate functions see it: its members live in a heap of its own, which is copied when the stepper is passed by
value; `system` and the observer share the outside world `W`, and the calls of the observer are recorded.  `x` is the user's object `0`. -/
def stepperObject (doStep : Loc → K → K → StepM K V W Unit) : BasicStepper (Heap K V W) (W × Log V K) V K where
  doStep q x t dt := fun w =>
    match doStep (.user 0) t dt ((q.set (.user 0) x).withWorld w.1) with
    | .ok () h => .ok (h, h.state (.user 0)) (h.world, w.2)
    | .err e h => .err e (h.world, w.2)
    | .ub => .ub
    | .div => .div

/-- The observer that records its calls. -/
def recordObserver : Observer (W × Log V K) V K := fun x t => M.modify fun w => (w.1, w.2 ++ [.obs x t])

variable [NormedAddCommGroup V] [NormedSpace ℝ V]

/-- `f` is `n` times continuously differentiable in state and time, and Lipschitz continuous in the state. -/
structure GoodRhs (f : V → ℝ → V) (n : ℕ) : Prop where
  smooth : ContDiff ℝ n fun z : V × ℝ => f z.1 z.2
  lipschitz : ∃ L, ∀ x y t, ‖f x t - f y t‖ ≤ L * ‖x - y‖

/-- `φ` solves `x' = f( x , t )` for all times. -/
def IsFlowLine (f : V → ℝ → V) (φ : ℝ → V) : Prop := ∀ t, HasDerivAt φ (f (φ t) t) t

/-- All observed states are within `err` of the solution at the observed times. -/
def CloseTo (φ : ℝ → V) (err : ℝ) (l : Log V ℝ) : Prop := ∀ o ∈ l.observations, ‖o.1 - φ o.2‖ ≤ err

/-- What it means that the integrate functions converge with order `p` to the solution `φ` as the step size goes to zero, when they are called with
a stepper in a state satisfying `fresh`: on every interval `[a,b]` there is a constant `C` such that for all start and end times in the interval, all
step sizes (positive or negative) up to `1` and all start states `x0` the call returns, and all observed states and the final state differ from the
solution at their time by at most `C * ( |x0 - φ t0| + |dt|^p )`.  `eps` is the tolerance of the comparisons of times. -/
def ConvergesWithOrder {Q : Type} (p : ℕ) (st : BasicStepper Q (W × Log V ℝ) V ℝ) (fresh : Q → Prop) (φ : ℝ → V) : Prop :=
  ∀ a b : ℝ, ∃ C, ∀ (eps t0 t1 dt : ℝ) (x0 : V) (q : Q) (w : W) (l : Log V ℝ), fresh q → 0 ≤ eps → eps ≤ 1 → t0 ∈ Set.Icc a b → t1 ∈ Set.Icc a b →
    dt ≠ 0 → |dt| ≤ 1 →
    let A := TimeArith.exact ℝ eps
    let bound := C * (‖x0 - φ t0‖ + |dt| ^ p)
    let grid := fun n : ℕ => (List.range (n + 1)).map fun k : ℕ => t0 + (k : ℝ) * dt
    /- `integrate_n_steps` to the time `t1` -/
    (∀ n : ℕ, t1 = t0 + n * dt → ∃ x w' l', integrateNStepsBasic A st recordObserver q x0 t0 dt n (w, l) = .ok (x, t1) (w', l ++ l') ∧
      l'.observations.map Prod.snd = grid n ∧ CloseTo φ bound l' ∧ ‖x - φ t1‖ ≤ bound) ∧
    /- `integrate_const`: to the last grid point that is not beyond `t1` -/
    (∃ x n w' l', integrateConstBasic A st recordObserver q x0 t0 t1 dt (w, l) = .ok (x, n) (w', l ++ l') ∧
      l'.observations.map Prod.snd = grid n ∧ CloseTo φ bound l' ∧ ‖x - φ (t0 + n * dt)‖ ≤ bound) ∧
    /- `integrate_adaptive`: to the time `t1`, up to `eps` -/
    (¬ Beyond eps dt t0 t1 → ∃ x n w' l', integrateAdaptiveBasic A st recordObserver q x0 t0 t1 dt (w, l) = .ok (x, n) (w', l ++ l') ∧
      CloseTo φ bound l' ∧ ∃ t, |t - t1| ≤ eps ∧ (x, t) ∈ l'.observations ∧ ‖x - φ t‖ ≤ bound)

end Verif
