import Verif.Spec.Convergence
import Verif.Spec.Symplectic

/-! # Steppers for pairs of coordinates and momenta inside the integrate functions -/

namespace Verif
variable {K V W : Type}

/-- The same as `stepperObject` for steppers whose states are pairs of coordinates and momenta (the user's objects `0` and `1`). -/
def pairStepperObject (doStep : Loc → Loc → K → K → StepM K V W Unit) : BasicStepper (Heap K V W) (W × Log (V × V) K) (V × V) K where
  doStep s x t dt := fun w =>
    match doStep (.user 0) (.user 1) t dt (((s.set (.user 0) x.1).set (.user 1) x.2).withWorld w.1) with
    | .ok () h => .ok (h, (h.state (.user 0), h.state (.user 1))) (h.world, w.2)
    | .err e h => .err e (h.world, w.2)
    | .ub => .ub
    | .div => .div

/-- Every call of the function returns `f x`; it may have side effects. -/
def EvaluatesTo (fn : V → M W V) (f : V → V) : Prop := ∀ x w, ∃ w', fn x w = .ok (f x) w'

/-- Every call of the function for the acceleration returns `a q t`; it may have side effects. -/
def Accelerates (sys : Sys2 K V W) (a : V → K → V) : Prop := ∀ q p t w, ∃ w', sys q p t w = .ok (a q t) w'

/-- The right hand side of `dq/dt = f( p )`, `dp/dt = g( q )`. -/
def separable (f g : V → V) : V × V → ℝ → V × V := fun z _ => (f z.2, g z.1)

/-- The right hand side of `dq/dt = p`, `dp/dt = a( q , t )`. -/
def secondOrder (a : V → ℝ → V) : V × V → ℝ → V × V := fun z t => (z.2, a z.1 t)

end Verif
