import Verif.Model.Symplectic
import Verif.Spec.Steps

/-!
# What the symplectic steppers should compute
-/

namespace Verif
variable {K V W : Type}

section
variable [Add K] [Sub K] [Mul K] [Div K] [IntCast K] [StateOps K V]

/-- The kick-drift scheme on values, for functions with arbitrary side effects and any arithmetic: in each
stage first the coordinates move with the derivative at the momenta, then the momenta with the derivative at the new
coordinates. -/
def rknRecipe (coor mom : V → M W V) (dt : K) : List (K × K) → V → V → M W (V × V)
  | [], q, p => pure (q, p)
  | (a, b) :: rest, q, p => do
      let dq ← coor p
      let dp ← mom (lin [(lit 1, q), (a * dt, dq)])
      rknRecipe coor mom dt rest (lin [(lit 1, q), (a * dt, dq)]) (lin [(lit 1, p), (b * dt, dp)])

/-- The velocity Verlet step on values: state `(q, p)`, acceleration `a` at the beginning; returns the new
state and the new acceleration. -/
def verletRecipe (sys : Sys2 K V W) (q p a : V) (t dt : K) : M W (V × V × V) := do
  let q' := lin [(lit 1, q), (lit 1 * dt, p), (frac 1 2 * dt * dt, a)]
  let a' ← sys q' p (t + dt)
  pure (q', lin [(lit 1, p), (frac 1 2 * dt, a), (frac 1 2 * dt, a')], a')

end

/-- A heap in which the user's objects 0 and 1 hold the given coordinates and momenta. -/
def phaseHeap [IntCast K] (z : V × V) : Heap K V Unit :=
  ⟨fun l => if l = .user 0 then z.1 else z.2, fun _ => lit 0, fun _ => true, fun _ => 0, ()⟩

/-- The contents of the user's objects 0 and 1 after a call. -/
def phaseOf (d : V × V) : Res (Heap K V Unit) Unit → V × V
  | .ok _ h => (h.state (.user 0), h.state (.user 1))
  | _ => d

section
variable [Add K] [Sub K] [Mul K] [Div K] [IntCast K] [StateOps K V]

/-- The map of phase space performed by `do_step( make_pair( f , g ) , x , t , dt )`. -/
def sympMap (coef : List (K × K)) (f g : V → V) (dt : K) (z : V × V) : V × V :=
  phaseOf z (rknDoStep coef (fun p => pure (f p)) (fun q => pure (g q)) (.user 0) (.user 1) dt (phaseHeap z))

/-- The map of phase space performed by `do_step( g , x , t , dt )`, for `dq/dt = p`. -/
def sympMapMom (coef : List (K × K)) (g : V → V) (dt : K) (z : V × V) : V × V :=
  phaseOf z (rknDoStepMom coef (fun q => pure (g q)) (.user 0) (.user 1) dt (phaseHeap z))

end

section
variable [Semiring K] [AddCommMonoid V] [Module K V]

/-- Moving along `dq/dt = f(p)` for the time `s`. -/
def drift (f : V → V) (s : K) (z : V × V) : V × V := (z.1 + s • f z.2, z.2)

/-- Moving along `dp/dt = g(q)` for the time `s`. -/
def kick (g : V → V) (s : K) (z : V × V) : V × V := (z.1, z.2 + s • g z.1)

end

/-- Undo the sub-steps one after the other, the last one first: run each of them backward in time. -/
def undoSteps [Ring K] [AddCommGroup V] [Module K V] (f g : V → V) (dt : K) (coef : List (K × K)) (z : V × V) :
    V × V :=
  coef.reverse.foldl (fun z c => drift f (-(c.1 * dt)) (kick g (-(c.2 * dt)) z)) z

/-- Two calls with the same outcome, the results being in several objects. -/
def SameOutcomes (r₁ : Res (Heap K V W) Unit) (out₁ : List Loc) (r₂ : Res (Heap K V W) Unit) (out₂ : List Loc) :
    Prop :=
  match r₁, r₂ with
  | .ok _ h₁, .ok _ h₂ => out₁.map h₁.state = out₂.map h₂.state ∧ h₁.world = h₂.world
  | .err e₁ h₁, .err e₂ h₂ => e₁ = e₂ ∧ h₁.world = h₂.world
  | .ub, .ub => True
  | .div, .div => True
  | _, _ => False

end Verif
