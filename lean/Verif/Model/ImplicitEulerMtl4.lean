import Verif.Model.ImplicitEuler

/-!
# `implicit_euler_mtl4` (`OI/external/mtl4/implicit_euler_mtl4.hpp`)

The iterative solver of the library, which is not part of the repository, is a parameter: `solver A x b` is what
`itl::bicgstab( A , x , b , L , iter )` leaves in `x`.  It works on the member variables, all of which are written before
they are read, so that they are local variables here.
-/

namespace Verif
variable {K W : Type} {n : ℕ}

/-- the iterative solver: matrix, start value, right hand side -/
abbrev LinearSolver (K : Type) (n : ℕ) := Matrix (Fin n) (Fin n) K → (Fin n → K) → (Fin n → K) → Fin n → K

variable [Ring K]

/-- `do_step( system , x , t , dt )` (`OI/external/mtl4/implicit_euler_mtl4.hpp:68-107`): the new state.  The member
`m_epsilon` is not used. -/
def ieMtl4Step (solver : LinearSolver K n) (sys : Sys K (Fin n → K) W) (jac : IeJac K W n) (x : Fin n → K) (t dt : K) :
    M W (Fin n → K) := do
  let dxdt ← sys x (t + dt)
  let J ← jac x (t + dt)
  pure (x + solver (dt • J - 1) x (-dt • dxdt))

/-- the call with the variable of the caller, which is changed at the end -/
def ieMtl4DoStep (solver : LinearSolver K n) (sys : Sys K (Fin n → K) W) (jac : IeJac K W n) (t dt : K) :
    M (IeState K n W) Unit := fun s =>
  match ieMtl4Step solver sys jac s.x t dt s.world with
  | .ok x w => .ok () ⟨x, w⟩
  | .err e w => .err e ⟨s.x, w⟩
  | .ub => .ub
  | .div => .div

end Verif
