import Verif.Spec.Relational
import Verif.Spec.DenseRun
import Verif.Spec.Mirror
import Verif.Spec.MultistepRun

/-! # Whole integrations in other coordinates -/

namespace Verif
variable {K V U W Q Q' : Type}

/-- The same event, with the state in the coordinates `L x`. -/
def Event.mapState (L : V → U) : Event V K → Event U K
  | .obs x t => .obs (L x) t
  | .step x t dt => .step (L x) t dt
  | .tried x t dt b => .tried (L x) t dt b
  | .init x t dt => .init (L x) t dt
  | .calc t => .calc t

/-- The same sequence of events, with all states in the coordinates `L x`. -/
def Log.mapState (L : V → U) (l : Log V K) : Log U K := l.map (Event.mapState L)

/-- The same outside world, and the log in the coordinates `L x`. -/
def mapWorld (L : V → U) (w : W × Log V K) : W × Log U K := (w.1, w.2.mapState L)

/-- The plain steppers. -/
inductive PlainStepper (K : Type) where
  /-- the explicit Runge-Kutta methods, `modified_midpoint` and `extrapolation_stepper` -/
  | explicit (s : InitStepper K)
  /-- `runge_kutta_dopri5`; `resized` tells whether the first member is resized by the call -/
  | dopri5 (resized : Bool)
  /-- `adams_bashforth< N >` with the initializing stepper `init` -/
  | adams (N : ℕ) (init : InitStepper K) (resized : Bool)
  /-- `adams_bashforth_moulton< N >` -/
  | adamsMoulton (N : ℕ) (init : InitStepper K) (resized : Bool)

/-- `do_step( sys , x , t , dt )` -/
def PlainStepper.doStep [Add K] [Sub K] [Mul K] [Div K] [IntCast K] [Neg K] [StateOps K V] (s : PlainStepper K) (sys : Sys K V W) (x : Loc)
    (t dt : K) : StepM K V W Unit :=
  match s with
  | .explicit s => doStep1 s.impl sys x t dt
  | .dopri5 resized => fsalStep1 dopri5Impl resized sys x t dt
  | .adams N init resized => abStep N (abCoef N) init sys resized x t x dt
  | .adamsMoulton N init resized => abmStep N (abCoef N) (amCoef N) init sys resized x t x dt

/-- The controlled steppers: `controlled_runge_kutta` of an error stepper, or of `runge_kutta_dopri5`. -/
inductive ControlledRkStepper (K : Type) where
  | explicit (s : ErrorStepper K)
  | dopri5 (resized : Bool)

/-- `try_step( sys , x , t , dt )` -/
def ControlledRkStepper.tryStep [Add K] [Sub K] [Mul K] [Div K] [IntCast K] [Neg K] [StateOps K V] (s : ControlledRkStepper K) (P : CtrlParams K V)
    (sys : Sys K V W) (x : Loc) (t dt : K) : StepM K V W (TryOut K) :=
  match s with
  | .explicit s => tryStep1 P s.errImpl sys x t dt
  | .dopri5 resized => fsalTry1 P dopri5ErrImpl resized sys x t dt

/-- Two controllers with the same parameters whose error checkers always return the same number in the two coordinate systems. -/
structure SameVerdicts (L : V → U) (P : CtrlParams K V) (P' : CtrlParams K U) : Prop where
  gtOne : P'.gtOne = P.gtOne
  adjuster : P'.adjuster = P.adjuster
  stepperOrder : P'.stepperOrder = P.stepperOrder
  errorOrder : P'.errorOrder = P.errorOrder
  checker : ∀ x k e (dt : K), (P'.checker.error (L x) (L k) (L e) dt).2 = (P.checker.error x k e dt).2

/-- The integrate functions, called with the plain stepper `st'` in the state `q'` in the coordinates `L x`, do the same as with `st` in the state
`q`: the same exceptions are thrown, the same times and numbers of steps are returned, the observer is called at the same times, and all states
(returned and observed) are the images under `L`. -/
def AlikeBasic (L : V → U) (A : TimeArith K) (st : BasicStepper Q (W × Log V K) V K) (st' : BasicStepper Q' (W × Log U K) U K) (q : Q) (q' : Q') :
    Prop :=
  ∀ (x : V) (t0 t1 dt : K) (n : ℕ) (times : List K) (w : W × Log V K),
    integrateNStepsBasic A st' recordObserver q' (L x) t0 dt n (mapWorld L w) =
      (integrateNStepsBasic A st recordObserver q x t0 dt n w).image (fun r => (L r.1, r.2)) (mapWorld L) ∧
    integrateConstBasic A st' recordObserver q' (L x) t0 t1 dt (mapWorld L w) =
      (integrateConstBasic A st recordObserver q x t0 t1 dt w).image (fun r => (L r.1, r.2)) (mapWorld L) ∧
    integrateAdaptiveBasic A st' recordObserver q' (L x) t0 t1 dt (mapWorld L w) =
      (integrateAdaptiveBasic A st recordObserver q x t0 t1 dt w).image (fun r => (L r.1, r.2)) (mapWorld L) ∧
    integrateTimesBasic A st' recordObserver q' (L x) times dt (mapWorld L w) =
      (integrateTimesBasic A st recordObserver q x times dt w).image (fun r => (L r.1, r.2)) (mapWorld L)

/-- The same for controlled steppers. -/
def AlikeControlled (L : V → U) (A : TimeArith K) (st : ControlledStepper Q (W × Log V K) V K) (st' : ControlledStepper Q' (W × Log U K) U K)
    (q : Q) (q' : Q') : Prop :=
  ∀ (x : V) (t0 t1 dt : K) (n : ℕ) (times : List K) (w : W × Log V K),
    integrateNStepsControlled A st' recordObserver q' (L x) t0 dt n (mapWorld L w) =
      (integrateNStepsControlled A st recordObserver q x t0 dt n w).image (fun r => (L r.1, r.2)) (mapWorld L) ∧
    integrateConstControlled A st' recordObserver q' (L x) t0 t1 dt (mapWorld L w) =
      (integrateConstControlled A st recordObserver q x t0 t1 dt w).image (fun r => (L r.1, r.2)) (mapWorld L) ∧
    integrateAdaptiveControlled A st' recordObserver q' (L x) t0 t1 dt (mapWorld L w) =
      (integrateAdaptiveControlled A st recordObserver q x t0 t1 dt w).image (fun r => ⟨L r.x, r.t, r.dt, r.count⟩) (mapWorld L) ∧
    integrateTimesControlled A st' recordObserver q' (L x) times dt (mapWorld L w) =
      (integrateTimesControlled A st recordObserver q x times dt w).image (fun r => (L r.1, r.2)) (mapWorld L)

/-- The same for dense output steppers. -/
def AlikeDense (L : V → U) (A : TimeArith K) (st : DenseStepper Q (W × Log V K) V K) (st' : DenseStepper Q' (W × Log U K) U K) (q : Q) (q' : Q') :
    Prop :=
  ∀ (x : V) (t0 t1 dt : K) (n : ℕ) (times : List K) (w : W × Log V K),
    integrateNStepsDense A st' recordObserver q' (L x) t0 dt n (mapWorld L w) =
      (integrateNStepsDense A st recordObserver q x t0 dt n w).image (fun r => (L r.1, r.2)) (mapWorld L) ∧
    integrateConstDense A st' recordObserver q' (L x) t0 t1 dt (mapWorld L w) =
      (integrateConstDense A st recordObserver q x t0 t1 dt w).image (fun r => (L r.1, r.2)) (mapWorld L) ∧
    integrateAdaptiveDense A st' recordObserver q' (L x) t0 t1 dt (mapWorld L w) =
      (integrateAdaptiveDense A st recordObserver q x t0 t1 dt w).image (fun r => (L r.1, r.2)) (mapWorld L) ∧
    integrateTimesDense A st' recordObserver q' (L x) times dt (mapWorld L w) =
      (integrateTimesDense A st recordObserver q x times dt w).image (fun r => (L r.1, r.2)) (mapWorld L)

/-- Component `j` of the state in the new coordinates is component `e j`, measured in a unit that is `s j` times smaller. -/
def otherUnits {d : ℕ} (s : Fin d → ℝ) (e : Equiv.Perm (Fin d)) (x : Fin d → ℝ) : Fin d → ℝ := fun j => s j * x (e j)

end Verif
