import Verif.Spec.ImplicitEulerRun
import Verif.Spec.Rosenbrock
import Mathlib.Algebra.Module.LinearMap.End

/-! # Specification vocabulary: `rosenbrock4` inside the integrate functions -/

namespace Verif

/-- The linear solver solves all systems with a regular matrix `c - J`. -/
def SolvesRegular {V : Type} [AddCommGroup V] [Module ℝ V] (solve : ℝ → (V →ₗ[ℝ] V) → V → V) : Prop :=
  ∀ c J, IsUnit (c • (1 : Module.End ℝ V) - J) → Solves solve c J

/-- The second function of the system (for the Jacobian and the derivative with respect to the time) always returns, with the derivative of `F` and zero: the right
hand side does not depend on the time. -/
def Differentiates {V W : Type} [NormedAddCommGroup V] [NormedSpace ℝ V] (jac : Jac ℝ V W (V →ₗ[ℝ] V)) (F : V → V) : Prop :=
  ∀ x t w, ∃ w', jac x t w = .ok ((fderiv ℝ F x : V →ₗ[ℝ] V), 0) w'

end Verif
