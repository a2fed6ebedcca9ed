import Verif.Model.ImplicitEuler
import Verif.Spec.Extrapolation
import Mathlib.LinearAlgebra.Matrix.NonsingularInverse

/-!
# What `implicit_euler` is expected to do
-/

namespace Verif
variable {K W Pm : Type} {n : ℕ} [Field K]

/-- the contract of the linear solver: a factorisation that begins with the initial permutation yields the solution of the system, and the solution
for the right-hand side zero is zero, whatever the factors are -/
structure Lu.Solves (L : Lu K n Pm) : Prop where
  solves : ∀ m m' p b, L.factorize m L.start = some (m', p) → m.mulVec (L.substitute m' p b) = b
  zero : ∀ m p, L.substitute m p 0 = 0

/-- the Jacobian function returns `A` -/
def IeJac.Returns (jac : IeJac K W n) (A : K → Matrix (Fin n) (Fin n) K) : Prop := ∀ x t w J w', jac x t w = .ok J w' → J = A t

/-- the implicit Euler step: `y = x + dt f( y , t + dt )` -/
def IsImplicitEuler (f : (Fin n → K) → K → Fin n → K) (x : Fin n → K) (t dt : K) (y : Fin n → K) : Prop := y = x + dt • f y (t + dt)

end Verif
