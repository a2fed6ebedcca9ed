import Verif.Spec.Mirror
import Verif.Model.Steppers

/-!
# Specification vocabulary: another unit and origin of time
-/

namespace Verif
variable {Q S K : Type} [Field K] [LinearOrder K]

/-- The same call, with times measured in another unit and from another origin: the time `t` is called `c * t + b`, the step size `dt` is `c * dt`. -/
def Event.rescale (c b : K) : Event S K → Event S K
  | .obs x t => .obs x (c * t + b)
  | .step x t dt => .step x (c * t + b) (c * dt)
  | .tried x t dt r => .tried x (c * t + b) (c * dt) r
  | .init x t dt => .init x (c * t + b) (c * dt)
  | .calc t => .calc (c * t + b)

/-- The same sequence of calls with other units. -/
def Log.rescale (c b : K) (l : Log S K) : Log S K := l.map (Event.rescale c b)

/-- The stepper for the problem in the new units. -/
def rescaleStep (c b : K) (step : Q → S → K → K → Except Err (Q × S)) : Q → S → K → K → Except Err (Q × S) :=
  fun q x t dt => step q x ((t - b) / c) (dt / c)

/-- The controlled stepper for the problem in the new units. -/
def rescaleTry (c b : K) (f : Q → S → K → K → Except Err (TryResult Q S K)) : Q → S → K → K → Except Err (TryResult Q S K) :=
  fun q x t dt => (f q x ((t - b) / c) (dt / c)).map fun r => { r with t := c * r.t + b, dt := c * r.dt }

/-- The dense output stepper for the problem in the new units. -/
def PureDense.rescale (c b : K) (p : PureDense Q S K) : PureDense Q S K where
  init q x t dt := p.init q x ((t - b) / c) (dt / c)
  doStep := p.doStep
  calcState q t := p.calcState q ((t - b) / c)
  curState := p.curState
  curTime q := c * p.curTime q + b
  curDt q := c * p.curDt q

/-- The system function of the problem in the new units: the derivative with respect to the new time. -/
def rescaleSys {V W : Type} [AddCommGroup V] [Module K V] (c b : K) (sys : Sys K V W) : Sys K V W := fun x t => do
  let k ← sys x ((t - b) / c)
  pure (c⁻¹ • k)

end Verif
