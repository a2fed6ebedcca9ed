import Verif.Spec.Controlled
import Verif.Spec.Dense

/-! # Specification vocabulary for `integrate_times` -/

namespace Verif
variable {Q S : Type} {K : Type} [Field K] [LinearOrder K]

/-- `b` is reached from `a` (both `(state, time)`) by one step of a fixed-step stepper that is either
`dt` long or ends exactly at `t1`, is never longer than `dt`, points in the direction of `dt` and does not
lead beyond `t1`. -/
def FixedStep (step : Q → S → K → K → Except Err (Q × S)) (dt t1 : K) (a b : S × K) : Prop :=
  ∃ q q' h, step q a.1 a.2 h = .ok (q', b.1) ∧ b.2 = a.2 + h ∧ SameDir dt h ∧ |h| ≤ |dt| ∧
    (h = dt ∨ b.2 = t1) ∧ ¬ Beyond 0 dt b.2 t1

/-- The state of `b` is reached from `a` by a path of steps (each related by `Step b.2`) that starts at the
time of `a` and ends within `eps` of the time of `b`. -/
def ReachedBy (Step : K → S × K → S × K → Prop) (eps : K) (a b : S × K) : Prop :=
  ∃ (path : List (S × K)) (t' : K), path.head? = some a ∧ path.getLast? = some (b.1, t') ∧
    |t' - b.2| ≤ eps ∧ path.IsChain (Step b.2)

/-- What the observer sees when the times `times` are requested: exactly these times in this order,
starting with state `x`, each later state reached from the previous one. -/
def TimesObserved (Step : K → S × K → S × K → Prop) (eps : K) (x : S) (times : List K) (xl : S)
    (obs : List (S × K)) : Prop :=
  obs.map Prod.snd = times ∧ obs.head?.map Prod.fst = some x ∧ obs.getLast?.map Prod.fst = some xl ∧
    obs.IsChain (ReachedBy Step eps)

end Verif
