import Verif.Spec.RosenbrockRun
import Verif.Spec.ControlledRun

/-! # Specification vocabulary: `rosenbrock4_controller` inside `integrate_adaptive` -/

namespace Verif
variable {W : Type} {d : ℕ}

/-- `rosenbrock4_controller< rosenbrock4< double > >( atol , rtol , maxDt )`, for states with `d` components. -/
noncomputable def rosControl (d : ℕ) (atol rtol maxDt : ℝ) : RosParams ℝ (Fin d → ℝ) where
  O := realOps 0
  maxDt := maxDt
  error x xold xerr := rosError (realOps 0) Real.sqrt atol rtol (List.ofFn x) (List.ofFn xold) (List.ofFn xerr)

/-- The controller was not used since its construction, or it remembers an error that is not too small. -/
def RosUsable (q : Heap ℝ (Fin d → ℝ) W) : Prop := (rosMem q).first = true ∨ 1 / 100 ≤ (rosMem q).errOld

/-- A step of the method leads from the state and time `a` to the state and time `b`, and the error measure of the controller, for its error estimate, is at most
one. -/
def RosWithinTolerance (atol rtol : ℝ) (solve : ℝ → ((Fin d → ℝ) →ₗ[ℝ] (Fin d → ℝ)) → (Fin d → ℝ) → Fin d → ℝ) (sys : Sys ℝ (Fin d → ℝ) W)
    (jac : Jac ℝ (Fin d → ℝ) W ((Fin d → ℝ) →ₗ[ℝ] (Fin d → ℝ))) (a b : (Fin d → ℝ) × ℝ) : Prop :=
  ∀ w, ∃ r w', rosStep defaultRosenbrock solve sys jac a.1 a.2 (b.2 - a.2) w = .ok r w' ∧ b.1 = r.x ℝ ∧
    rosError (realOps 0) Real.sqrt atol rtol (List.ofFn b.1) (List.ofFn a.1) (List.ofFn r.g6) ≤ 1

end Verif
