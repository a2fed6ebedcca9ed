import Verif.Spec.Mirror
import Verif.Spec.Convergence
import Verif.Model.Rosenbrock
import Verif.Model.ControlledRk
import Verif.Spec.Multistep

/-! # Specification vocabulary: the reversed system -/

namespace Verif
variable {K V W Q Q' : Type} [Field K] [LinearOrder K]

/-- The system with reversed time: if `x( t )` solves `x' = f( x , t )`, then `x( -t )` solves `x' = -f( x , -t )`. -/
def reversedSys [AddCommGroup V] (sys : Sys K V W) : Sys K V W := fun x t => do
  let k ← sys x (-t)
  pure (-k)

/-- What the user's program sees: its own variables are the same, the recorded observer calls have the negated times. -/
def mirrorWorld (w : W × Log V K) : W × Log V K := (w.1, w.2.neg)

/-- The integrate functions with the plain stepper `st'` run from `-t0` to `-t1` with step size `-dt` do exactly what they do with `st` from `t0` to
`t1` with step size `dt`: the same observed states at the negated times, the same calls of the system function, results and exceptions.  `same` is what is
required of the two steppers at the beginning. -/
def BasicReverses (eps : K) (same : Q → Q' → Prop) (st : BasicStepper Q (W × Log V K) V K) (st' : BasicStepper Q' (W × Log V K) V K) : Prop :=
  ∀ (q : Q) (q' : Q') (x : V) (t0 t1 dt : K) (n : ℕ) (times : List K) (w : W × Log V K), same q q' → dt ≠ 0 →
    let A := TimeArith.exact K eps
    integrateNStepsBasic A st' recordObserver q' x (-t0) (-dt) n (mirrorWorld w) =
      (integrateNStepsBasic A st recordObserver q x t0 dt n w).image (fun r => (r.1, -r.2)) mirrorWorld ∧
    integrateConstBasic A st' recordObserver q' x (-t0) (-t1) (-dt) (mirrorWorld w) =
      (integrateConstBasic A st recordObserver q x t0 t1 dt w).image id mirrorWorld ∧
    integrateAdaptiveBasic A st' recordObserver q' x (-t0) (-t1) (-dt) (mirrorWorld w) =
      (integrateAdaptiveBasic A st recordObserver q x t0 t1 dt w).image id mirrorWorld ∧
    integrateTimesBasic A st' recordObserver q' x (times.map (- ·)) (-dt) (mirrorWorld w) =
      (integrateTimesBasic A st recordObserver q x times dt w).image id mirrorWorld

/-- The same for controlled steppers; the step sizes are the negated ones, too. -/
def ControlledReverses (eps : K) (same : Q → Q' → Prop) (st : ControlledStepper Q (W × Log V K) V K) (st' : ControlledStepper Q' (W × Log V K) V K) : Prop :=
  ∀ (q : Q) (q' : Q') (x : V) (t0 t1 dt : K) (n : ℕ) (times : List K) (w : W × Log V K), same q q' → dt ≠ 0 →
    let A := TimeArith.exact K eps
    integrateNStepsControlled A st' recordObserver q' x (-t0) (-dt) n (mirrorWorld w) =
      (integrateNStepsControlled A st recordObserver q x t0 dt n w).image (fun r => (r.1, -r.2)) mirrorWorld ∧
    integrateConstControlled A st' recordObserver q' x (-t0) (-t1) (-dt) (mirrorWorld w) =
      (integrateConstControlled A st recordObserver q x t0 t1 dt w).image id mirrorWorld ∧
    integrateAdaptiveControlled A st' recordObserver q' x (-t0) (-t1) (-dt) (mirrorWorld w) =
      (integrateAdaptiveControlled A st recordObserver q x t0 t1 dt w).image (fun r => ⟨r.x, -r.t, -r.dt, r.count⟩) mirrorWorld ∧
    integrateTimesControlled A st' recordObserver q' x (times.map (- ·)) (-dt) (mirrorWorld w) =
      (integrateTimesControlled A st recordObserver q x times dt w).image id mirrorWorld

/-- Error checker and step adjuster of `P'` treat a step of the reversed system as those of `P` treat the step itself, and do not propose a step of size zero. -/
structure ReversedControl [AddCommGroup V] (P P' : CtrlParams K V) : Prop where
  gtOne : P'.gtOne = P.gtOne
  errorOrder : P'.errorOrder = P.errorOrder
  stepperOrder : P'.stepperOrder = P.stepperOrder
  error : ∀ x k e dt, (P'.checker.error x (-k) e (-dt)).2 = (P.checker.error x k e dt).2
  decrease : ∀ dt err n, dt ≠ 0 → P'.adjuster.decreaseStep (-dt) err n = -P.adjuster.decreaseStep dt err n ∧ P.adjuster.decreaseStep dt err n ≠ 0
  increase : ∀ dt err n, dt ≠ 0 → P'.adjuster.increaseStep (-dt) err n = -P.adjuster.increaseStep dt err n ∧ P.adjuster.increaseStep dt err n ≠ 0
  limit : ∀ dt, dt ≠ 0 → P'.adjuster.checkStepSizeLimit (-dt) = P.adjuster.checkStepSizeLimit dt
  maxDt : ∀ dt, P.adjuster.checkStepSizeLimit dt = false → P'.adjuster.maxDt = -P.adjuster.maxDt ∧ P.adjuster.maxDt ≠ 0

/-- The Jacobian and the time derivative of the reversed system. -/
def reversedJac {Mat : Type} [Neg Mat] (jac : Jac K V W Mat) : Jac K V W Mat := fun x t => do
  let r ← jac x (-t)
  pure (-r.1, r.2)

/-- What a `rosenbrock4_controller` remembers after the same steps in the opposite direction. -/
structure RosMirrored (q q' : Heap K V W) : Prop where
  first : (rosMem q').first = (rosMem q).first
  errOld : (rosMem q').errOld = (rosMem q).errOld
  dtOld : (rosMem q').dtOld = -(rosMem q).dtOld
  lastRejected : (rosMem q').lastRejected = (rosMem q).lastRejected

/-- What a controlled `runge_kutta_dopri5` keeps after the same steps in the opposite direction: the negated derivative; nothing if it is new or was reset. -/
structure FsalMirrored [Neg V] (q q' : Heap K V W) : Prop where
  first : q'.flag mCtrlFirst = q.flag mCtrlFirst
  dxdt : q.flag mCtrlFirst = false → q'.state mCtrlDxdt = -q.state mCtrlDxdt

/-- What a `runge_kutta_dopri5` keeps after the same steps in the opposite direction: the negated derivative; nothing if it is new or was reset. -/
structure DopriMirrored [Neg V] (q q' : Heap K V W) : Prop where
  first : q'.flag mFirstCall = q.flag mFirstCall
  dxdt : q.flag mFirstCall = false → q'.state mDxdt = -q.state mDxdt

/-- The function with the negated value, for each of the two functions of a separable system. -/
def reversedFun [AddCommGroup V] (f : V → M W V) : V → M W V := fun x => do
  let k ← f x
  pure (-k)

/-- What an Adams method of `N` steps keeps after the same steps in the opposite direction: the same number of derivatives, but negated; none if it is new
or was reset. -/
def AdamsMirrored [Neg V] (N : ℕ) (q q' : Heap K V W) : Prop := ∃ past, AdamsMemory N q past ∧ AdamsMemory N q' (past.map (- ·))

end Verif
