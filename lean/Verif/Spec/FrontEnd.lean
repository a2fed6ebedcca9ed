import Verif.Model.FrontEnd
import Verif.Spec.DenseRun

/-! # `integrate` and steppers made by `make_controlled` and `make_dense_output` -/

namespace Verif
variable {K V W : Type}

/-- Error checker and step adjuster constructed with the given arguments, for states with `d` components, a stepper of order `p` and an error
estimate of order `q`. -/
noncomputable def ControlArgs.params (a : ControlArgs ℝ) (d p q : ℕ) : CtrlParams ℝ (Fin d → ℝ) :=
  (⟨a.epsAbs, a.epsRel, a.aX, a.aDxdt⟩ : Tolerances).controlUpTo d p q a.maxDt

/-- A new `controlled_runge_kutta< runge_kutta_dopri5 >` (`OI/stepper/controlled_runge_kutta.hpp:584-591`): `m_first_call` is set, the contents `m` of
the other members are arbitrary. -/
def newFsalController (m : Heap K V W) : Heap K V W := { m with flag := Function.update m.flag mCtrlFirst true }

/-- `integrate( system , x , t0 , t1 , dt , observer )` (`OI/integrate/integrate.hpp:42-48`): `integrate_adaptive` with a default constructed
`controlled_runge_kutta< runge_kutta_dopri5 >`.  `resized` says what the resizers of the stepper report (see `fsalTry1`); `m` is the memory the stepper
is constructed in. -/
noncomputable def integrate {d : ℕ} (A : TimeArith ℝ) (resized : Bool) (m : Heap ℝ (Fin d → ℝ) W) (sys : Sys ℝ (Fin d → ℝ) W)
    (obs : Observer (W × Log (Fin d → ℝ) ℝ) (Fin d → ℝ) ℝ) (x : Fin d → ℝ) (t0 t1 dt : ℝ) : M (W × Log (Fin d → ℝ) ℝ) (AdaptResult (Fin d → ℝ) ℝ) :=
  integrateAdaptiveControlled A (controlledObject fun l t dt => fsalTry1 (ControlArgs.default.params d 5 4) dopri5ErrImpl resized sys l t dt) obs
    (newFsalController m) x t0 t1 dt

/-- A step from the state and time `u` to the state and time `v` was made according to `yields` (state, time and step size; new state and error
estimate), and each component of the error estimate is at most `absError + relError ( |x_i| + |h f_i| )`, where `h` is the size of the step. -/
def PreciseStep {d : ℕ} (absError relError : ℝ) (f : (Fin d → ℝ) → ℝ → Fin d → ℝ)
    (yields : (Fin d → ℝ) → ℝ → ℝ → (Fin d → ℝ) × (Fin d → ℝ) → Prop) (u v : (Fin d → ℝ) × ℝ) : Prop :=
  ∃ e, yields u.1 u.2 (v.2 - u.2) (v.1, e) ∧ ∀ i, |e i| ≤ absError + relError * (|u.1 i| + |(v.2 - u.2) * f u.1 u.2 i|)

/-- What a user expects of an adaptive integration `run` (state, time and number of steps it returns) from `x0`, `t0` in the direction of `dt` to `t1`
(reached up to `eps`) with absolute and relative error `absError` and `relError` and steps not longer than `maxDt`, if a limit is given: it
returns, unless `absError < C * 0.9^498`, in which case it may throw `step_adjustment_error`.  The observations `l'` start with the start state, and
end with the returned state at the end time; there is one for each step; the steps go in the direction of `dt`, keep the limit, and are precise; if
no step is longer than `H`, all observed states differ from the solution by at most `C * ( |x0 - φ t0| + H^p )`. -/
def RunsReliably {d : ℕ} (p : ℕ) (f : (Fin d → ℝ) → ℝ → Fin d → ℝ) (yields : (Fin d → ℝ) → ℝ → ℝ → (Fin d → ℝ) × (Fin d → ℝ) → Prop)
    (φ : ℝ → Fin d → ℝ) (C absError relError : ℝ) (maxDt : Option ℝ) (eps t0 t1 dt : ℝ) (x0 : Fin d → ℝ) (l : Log (Fin d → ℝ) ℝ)
    (run : Res (W × Log (Fin d → ℝ) ℝ) (AdaptResult (Fin d → ℝ) ℝ)) : Prop :=
  let Run : Log (Fin d → ℝ) ℝ → Prop := fun l' =>
    l'.observations.IsChain (fun u v => SameDir dt (v.2 - u.2) ∧ (∀ m ∈ maxDt, |v.2 - u.2| ≤ |m|) ∧ PreciseStep absError relError f yields u v) ∧
    l'.observations.head? = some (x0, t0) ∧
    ∀ H, l'.observations.IsChain (fun u v => |v.2 - u.2| ≤ H) → 0 ≤ H → CloseTo φ (C * (‖x0 - φ t0‖ + H ^ p)) l'
  (∃ r w' l', run = .ok r (w', l ++ l') ∧ Run l' ∧ l'.observations.getLast? = some (r.x, r.t) ∧ l'.observations.length = r.count + 1 ∧
    |r.t - t1| ≤ eps) ∨
  (∃ w' l', run = .err .stepAdjustment (w', l ++ l') ∧ Run l' ∧ absError < C * (9 / 10) ^ 498)

end Verif
