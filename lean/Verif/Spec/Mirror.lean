import Verif.Spec.Dense
import Verif.Spec.Controlled

/-!
# Specification vocabulary: mirroring the time axis
-/

namespace Verif
variable {Q S K : Type} [Field K] [LinearOrder K]

/-- The same call with all times and step sizes negated. -/
def Event.neg : Event S K → Event S K
  | .obs x t => .obs x (-t)
  | .step x t dt => .step x (-t) (-dt)
  | .tried x t dt b => .tried x (-t) (-dt) b
  | .init x t dt => .init x (-t) (-dt)
  | .calc t => .calc (-t)

/-- The same sequence of calls with all times and step sizes negated. -/
def Log.neg (l : Log S K) : Log S K := l.map Event.neg

/-- The stepper for the mirrored problem: at time `t` with step size `dt` it does what the original does
at time `-t` with step size `-dt`. -/
def mirrorStep (step : Q → S → K → K → Except Err (Q × S)) : Q → S → K → K → Except Err (Q × S) :=
  fun q x t dt => step q x (-t) (-dt)

/-- The controlled stepper for the mirrored problem. -/
def mirrorTry (f : Q → S → K → K → Except Err (TryResult Q S K)) :
    Q → S → K → K → Except Err (TryResult Q S K) :=
  fun q x t dt => (f q x (-t) (-dt)).map fun r => { r with t := -r.t, dt := -r.dt }

/-- The dense output stepper for the mirrored problem. -/
def PureDense.mirror (p : PureDense Q S K) : PureDense Q S K where
  init q x t dt := p.init q x (-t) (-dt)
  doStep := p.doStep
  calcState q t := p.calcState q (-t)
  curState := p.curState
  curTime q := -p.curTime q
  curDt q := -p.curDt q

/-- Transform the returned value and the world of an outcome. -/
def Res.image {W U α β : Type} (f : α → β) (g : W → U) : Res W α → Res U β
  | .ok a w => .ok (f a) (g w)
  | .err e w => .err e (g w)
  | .ub => .ub
  | .div => .div

end Verif
