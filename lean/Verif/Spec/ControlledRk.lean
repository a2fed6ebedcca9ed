import Verif.Spec.Steps
import Verif.Spec.Steppers
import Verif.Model.ControlledRk

/-!
# What a trial step of a controlled stepper means
-/

namespace Verif
variable {K V W α β : Type}

/-- `Computes os h p spec ret outs exc`: like `Implements`, for a call with a result: `p` returns `ret a` when the
recipe `spec` yields `a`. -/
def Computes (os : List Owner) (h : Heap K V W) (p : StepM K V W β) (spec : M W α) (ret : α → β)
    (outs : α → List (Loc × V)) (exc : List Loc) : Prop :=
  match spec h.world with
  | .ok a w => ∃ h', p h = .ok (ret a) h' ∧ h'.world = w ∧
      ∀ l, ¬ l.ownedBy os → (h.setAll (outs a)).SameAt h' l
  | .err e w => ∃ h', p h = .err e h' ∧ h'.world = w ∧
      ∀ l, ¬ l.ownedBy os → l ∉ exc → h.SameAt h' l
  | .ub => p h = .ub
  | .div => p h = .div

/-- The outcome of one trial. -/
inductive Trial (K V : Type) where
  /-- the step size exceeded the limit, nothing was computed; `dt'` is the limit -/
  | limited (dt' : K)
  /-- the step to `y` was computed and rejected because of the error `err`; `dt'` is the next step size -/
  | rejected (y : V) (err dt' : K)
  /-- the step to `y` was computed and accepted -/
  | accepted (y : V) (err dt' : K)

/-- One trial: step, weighted error, decision. -/
def trial (P : CtrlParams K V) (step : Recipe K V W (V × V)) : Recipe K V W (Trial K V) := fun sys x k1 t dt =>
  if P.adjuster.checkStepSizeLimit dt = false then pure (.limited P.adjuster.maxDt)
  else do
    let r ← step sys x k1 t dt
    let err := (P.checker.error x k1 r.2 dt).2
    if P.gtOne err = true then
      pure (.rejected r.1 err (P.adjuster.decreaseStep dt err P.errorOrder))
    else pure (.accepted r.1 err (P.adjuster.increaseStep dt err P.stepperOrder))

/-- What the caller of `try_step` gets: result, time, step size.  The time advances only on success. -/
def Trial.out [Add K] (t dt : K) : Trial K V → TryOut K
  | .limited dt' => ⟨false, t, dt'⟩
  | .rejected _ _ dt' => ⟨false, t, dt'⟩
  | .accepted _ _ dt' => ⟨true, t + dt, dt'⟩

/-- The state `x` of an in-place `try_step` changes only on success. -/
def Trial.inPlace (x : Loc) : Trial K V → List (Loc × V)
  | .accepted y _ _ => [(x, y)]
  | _ => []

/-- The output of an out-of-place `try_step` is written whenever a step was computed, also if it is rejected. -/
def Trial.outOfPlace (out : Loc) : Trial K V → List (Loc × V)
  | .accepted y _ _ => [(out, y)]
  | .rejected y _ _ => [(out, y)]
  | .limited _ => []

/-- One trial of a FSAL stepper: the new state comes with the derivative there. -/
def fsalTrial (P : CtrlParams K V) (step : Recipe K V W ((V × V) × V)) : Recipe K V W (Trial K (V × V)) :=
  fun sys x k1 t dt =>
  if P.adjuster.checkStepSizeLimit dt = false then pure (.limited P.adjuster.maxDt)
  else do
    let r ← step sys x k1 t dt
    let err := (P.checker.error x k1 r.2 dt).2
    if P.gtOne err = true then
      pure (.rejected r.1 err (P.adjuster.decreaseStep dt err P.errorOrder))
    else pure (.accepted r.1 err (P.adjuster.increaseStep dt err P.stepperOrder))

/-- In-place FSAL `try_step`: state and derivative change only on success, and together. -/
def Trial.inPlaceFsal (x dxdt : Loc) : Trial K (V × V) → List (Loc × V)
  | .accepted y _ _ => [(x, y.1), (dxdt, y.2)]
  | _ => []

/-- Out-of-place FSAL `try_step`. -/
def Trial.outOfPlaceFsal (out dxdtOut : Loc) : Trial K (V × V) → List (Loc × V)
  | .accepted y _ _ => [(out, y.1), (dxdtOut, y.2)]
  | .rejected y _ _ => [(out, y.1), (dxdtOut, y.2)]
  | .limited _ => []

section
variable [Add K] [Sub K] [Mul K] [Div K] [IntCast K] [StateOps K V]

/-- The Dormand-Prince step as a FSAL recipe: new state, derivative there, error estimate. -/
def dopri5ErrStep : Recipe K V W ((V × V) × V) := fun sys x k1 t dt => do
  let r ← dopri5Step sys x k1 t dt
  pure ((r.x, r.k7), dopri5Error k1 dt r)

end
end Verif
