import Verif.Model.Integrate
import Verif.Model.Heap
import Verif.Model.ControlledRk

/-!
# Specification vocabulary: what the caller sees after an exception

The caller of an integrate function owns the variable that is passed as `start_state`, and the steppers work on this variable in place.  When an exception
leaves the integrate function, the caller can look at it.
-/

namespace Verif
variable {Q W S T K V : Type}

/-- The world of the system function, the caller's variable, and the calls of the observer (the last one last, also when it throws). -/
structure Scene (W S T : Type) where
  world : W
  x : S
  seen : List (S × T)

/-- A stepper object that works on the caller's variable (`Loc.user 0`). -/
def sceneStepper (doStep : Loc → K → K → StepM K V W Unit) : BasicStepper (Heap K V W) (Scene W V K) V K where
  doStep q x t dt := fun sc =>
    match doStep (.user 0) t dt ((q.set (.user 0) x).withWorld sc.world) with
    | .ok () h => .ok (h, h.state (.user 0)) ⟨h.world, h.state (.user 0), sc.seen⟩
    | .err e h => .err e ⟨h.world, h.state (.user 0), sc.seen⟩
    | .ub => .ub
    | .div => .div

/-- A controlled stepper object that works on the caller's variable. -/
def sceneControlled (tryStep : Loc → K → K → StepM K V W (TryOut K)) : ControlledStepper (Heap K V W) (Scene W V K) V K where
  tryStep q x t dt := fun sc =>
    match tryStep (.user 0) t dt ((q.set (.user 0) x).withWorld sc.world) with
    | .ok r h => .ok ⟨h, h.state (.user 0), r.t, r.dt, r.success⟩ ⟨h.world, h.state (.user 0), sc.seen⟩
    | .err e h => .err e ⟨h.world, h.state (.user 0), sc.seen⟩
    | .ub => .ub
    | .div => .div

/-- An observer whose calls are noted down.  It may throw; it cannot change the caller's variable, which it gets as `const &`. -/
def sceneObserver (obs : Observer W S T) : Observer (Scene W S T) S T := fun x t sc =>
  match obs x t sc.world with
  | .ok () w => .ok () ⟨w, sc.x, sc.seen ++ [(x, t)]⟩
  | .err e w => .err e ⟨w, sc.x, sc.seen ++ [(x, t)]⟩
  | .ub => .ub
  | .div => .div

/-- The caller's variable holds the state with which the observer was called last, at time `t`. -/
def Scene.LastSeen (sc : Scene W S T) (t : T) : Prop := sc.seen.getLast? = some (sc.x, t)

end Verif
