import Verif.Model.Steppers
import Verif.Model.TimeArith

/-!
# `controlled_runge_kutta`

`OI` abbreviates `/repo/include/boost/numeric/odeint`.  Error checker and step adjuster are template
parameters of the class; the defaults are modelled too.
-/

namespace Verif
variable {K V W : Type}

/-- The operations on the value type, besides `+ - * /` and conversion from integers, that the step-size
controllers use.  No law is assumed. -/
structure NumOps (K : Type) where
  lt : K → K → Bool
  le : K → K → Bool
  eq : K → K → Bool
  abs : K → K
  pow : K → K → K
  /-- `std::numeric_limits<K>::epsilon()` -/
  eps : K

/-- `std::max` -/
def NumOps.max (O : NumOps K) (a b : K) : K := if O.lt a b then b else a
/-- `std::min` -/
def NumOps.min (O : NumOps K) (a b : K) : K := if O.lt b a then b else a

/-- The time operations that belong to the operations on values. -/
def NumOps.time [Add K] [Sub K] [Mul K] [IntCast K] (O : NumOps K) : TimeArith K where
  add := (· + ·)
  sub := (· - ·)
  nmul n dt := lit n * dt
  lt := O.lt
  le := O.le
  zero := lit 0
  eps := O.eps

/-- an error checker, `OI/stepper/controlled_runge_kutta.hpp:50-98` -/
structure ErrorChecker (K V : Type) where
  /-- `error( algebra , x_old , dxdt_old , x_err , dt )`: the new contents of `x_err` and the value -/
  error : V → V → V → K → V × K

/-- a step adjuster, `OI/stepper/controlled_runge_kutta.hpp:103-166` -/
structure StepAdjuster (K : Type) where
  decreaseStep : K → K → ℤ → K
  increaseStep : K → K → ℤ → K
  checkStepSizeLimit : K → Bool
  maxDt : K

section Default
variable [Add K] [Sub K] [Mul K] [Div K] [Neg K] [IntCast K]

/-- `rel_error::operator()` (`OI/algebra/default_operations.hpp:431-446`) -/
def relError (O : NumOps K) (epsAbs epsRel aX aDxdt : K) (err x dxdt : K) : K :=
  O.abs err / (epsAbs + epsRel * (aX * O.abs x + aDxdt * O.abs dxdt))

/-- `for_each3( x_err , x_old , dxdt_old , rel_error )` (`OI/algebra/detail/for_each.hpp:40-47`); the three
states have the same size -/
def relErrorLoop (O : NumOps K) (epsAbs epsRel aX aDxdt : K) : List K → List K → List K → List K
  | e :: es, x :: xs, d :: ds =>
      relError O epsAbs epsRel aX aDxdt e x d :: relErrorLoop O epsAbs epsRel aX aDxdt es xs ds
  | _, _, _ => []

/-- `detail::norm_inf` (`OI/algebra/detail/norm_inf.hpp:28-36`), started with `0`
(`OI/algebra/range_algebra.hpp:128-135`) -/
def normInf (O : NumOps K) : K → List K → K
  | init, [] => init
  | init, v :: vs => normInf O (O.max init (O.abs v)) vs

/-- `default_error_checker::error` (`OI/stepper/controlled_runge_kutta.hpp:79-91`) for a state that is a range of
numbers -/
def defaultErrorChecker (O : NumOps K) (epsAbs epsRel aX aDxdt : K) : ErrorChecker K (List K) where
  error x dxdt err dt :=
    let e := relErrorLoop O epsAbs epsRel aX (aDxdt * O.abs dt) err x dxdt
    (e, normInf O (lit 0) e)

/-- `default_step_adjuster::decrease_step` (`OI/stepper/controlled_runge_kutta.hpp:115-131`) -/
def decreaseStep (O : NumOps K) (maxDt dt error : K) (errorOrder : ℤ) : K :=
  let dt := dt * O.max (lit 9 / lit 10 * O.pow error (lit (-1) / lit (errorOrder - 1))) (lit 1 / lit 5)
  if !O.eq maxDt (lit 0) then O.time.minAbs dt maxDt else dt

/-- `default_step_adjuster::increase_step` (`OI/stepper/controlled_runge_kutta.hpp:133-157`) -/
def increaseStep (O : NumOps K) (maxDt dt error : K) (stepperOrder : ℤ) : K :=
  if O.lt error (frac 1 2) then
    let error := O.max (O.pow (lit 5) (-(lit stepperOrder))) error
    let dt := dt * (lit 9 / lit 10 * O.pow error (lit (-1) / lit stepperOrder))
    if !O.eq maxDt (lit 0) then O.time.minAbs dt maxDt else dt
  else dt

/-- `default_step_adjuster::check_step_size_limit` (`OI/stepper/controlled_runge_kutta.hpp:159-164`) -/
def checkStepSizeLimit (O : NumOps K) (maxDt dt : K) : Bool :=
  if !O.eq maxDt (lit 0) then O.time.lessEqWithSign dt maxDt dt else true

/-- `default_step_adjuster` (`OI/stepper/controlled_runge_kutta.hpp:103-170`) -/
def defaultAdjuster (O : NumOps K) (maxDt : K) : StepAdjuster K where
  decreaseStep := decreaseStep O maxDt
  increaseStep := increaseStep O maxDt
  checkStepSizeLimit := checkStepSizeLimit O maxDt
  maxDt := maxDt

end Default

/-! ## Members -/

/-- `m_dxdt` (`OI/stepper/controlled_runge_kutta.hpp:515,916`) -/
def mCtrlDxdt : Loc := .priv .cache 0
/-- `m_xnew` (`OI/stepper/controlled_runge_kutta.hpp:517,918`) -/
def mXnew : Loc := .priv .ctrl 1
/-- `m_xerr` (`OI/stepper/controlled_runge_kutta.hpp:516,917`) -/
def mXerr : Loc := .priv .ctrl 2
/-- `m_dxdtnew` (`OI/stepper/controlled_runge_kutta.hpp:919`) -/
def mDxdtNew : Loc := .priv .ctrl 3
/-- `m_first_call` (`OI/stepper/controlled_runge_kutta.hpp:920`) -/
def mCtrlFirst : Loc := .priv .cache 1

/-- The result of `try_step`, and the new values of the arguments `t` and `dt` that are passed by reference.  (When
an exception propagates, they have not been assigned.) -/
structure TryOut (K : Type) where
  success : Bool
  t : K
  dt : K

/-- The parts of a `controlled_runge_kutta` that do not change: comparison `> 1.0`, error checker, step adjuster and
the orders of the stepper. -/
structure CtrlParams (K V : Type) where
  gtOne : K → Bool
  checker : ErrorChecker K V
  adjuster : StepAdjuster K
  stepperOrder : ℤ
  errorOrder : ℤ

/-- `m_error_checker.error( m_stepper.algebra() , in , dxdt , m_xerr.m_v , dt )` -/
def callChecker' (P : CtrlParams K V) (inp dxdt xerr : Loc) (dt : K) : StepM K V W K := fun h =>
  let r := P.checker.error (h.state inp) (h.state dxdt) (h.state xerr) dt
  .ok r.2 (h.set xerr r.1)

section Explicit
variable [Add K]

/-- the decision at the end of `try_step` (`OI/stepper/controlled_runge_kutta.hpp:429-440,773-782`) -/
def decide' (P : CtrlParams K V) (t dt err : K) : TryOut K :=
  if P.gtOne err then ⟨false, t, P.adjuster.decreaseStep dt err P.errorOrder⟩
  else ⟨true, t + dt, P.adjuster.increaseStep dt err P.stepperOrder⟩

/-- version 4, `try_step( sys , in , dxdt , t , out , dt )` (`OI/stepper/controlled_runge_kutta.hpp:411-441`) -/
def tryStep4 (P : CtrlParams K V) (impl : ErrStepImpl K V W) (sys : Sys K V W) (inp dxdt : Loc) (t : K) (out : Loc)
    (dt : K) : StepM K V W (TryOut K) := do
  if !P.adjuster.checkStepSizeLimit dt then
    return ⟨false, t, P.adjuster.maxDt⟩
  doStep8 impl sys inp dxdt t out dt mXerr
  let maxRelErr ← callChecker' P inp dxdt mXerr dt
  return decide' P t dt maxRelErr

/-- version 2, `try_step( sys , x , dxdt , t , dt )` (`OI/stepper/controlled_runge_kutta.hpp:337-347`) -/
def tryStep2 (P : CtrlParams K V) (impl : ErrStepImpl K V W) (sys : Sys K V W) (x dxdt : Loc) (t dt : K) :
    StepM K V W (TryOut K) := do
  let res ← tryStep4 P impl sys x dxdt t mXnew dt
  if res.success then copyTo mXnew x
  return res

/-- version 1, `try_step( sys , x , t , dt )` (`OI/stepper/controlled_runge_kutta.hpp:262-266,477-484`) -/
def tryStep1 (P : CtrlParams K V) (impl : ErrStepImpl K V W) (sys : Sys K V W) (x : Loc) (t dt : K) :
    StepM K V W (TryOut K) := do
  callSys sys x mCtrlDxdt t
  tryStep2 P impl sys x mCtrlDxdt t dt

/-- version 3, `try_step( sys , in , t , out , dt )` (`OI/stepper/controlled_runge_kutta.hpp:376-384`) -/
def tryStep3 (P : CtrlParams K V) (impl : ErrStepImpl K V W) (sys : Sys K V W) (inp : Loc) (t : K) (out : Loc)
    (dt : K) : StepM K V W (TryOut K) := do
  callSys sys inp mCtrlDxdt t
  tryStep4 P impl sys inp mCtrlDxdt t out dt

end Explicit

section FsalCtrl
variable [Add K]

/-- FSAL version 4, `try_step( sys , in , dxdt_in , t , out , dxdt_out , dt )`
(`OI/stepper/controlled_runge_kutta.hpp:752-783`) -/
def fsalTry4 (P : CtrlParams K V) (impl : FsalErrImpl K V W) (sys : Sys K V W) (inp dxdtIn : Loc) (t : K)
    (out dxdtOut : Loc) (dt : K) : StepM K V W (TryOut K) := do
  if !P.adjuster.checkStepSizeLimit dt then
    return ⟨false, t, P.adjuster.maxDt⟩
  fsalStep8 impl sys inp dxdtIn t out dxdtOut dt mXerr
  let maxRelErr ← callChecker' P inp dxdtIn mXerr dt
  return decide' P t dt maxRelErr

/-- FSAL version 3, `try_step( sys , x , dxdt , t , dt )` (`OI/stepper/controlled_runge_kutta.hpp:713-725`) -/
def fsalTry3 (P : CtrlParams K V) (impl : FsalErrImpl K V W) (sys : Sys K V W) (x dxdt : Loc) (t dt : K) :
    StepM K V W (TryOut K) := do
  let res ← fsalTry4 P impl sys x dxdt t mXnew mDxdtNew dt
  if res.success then
    copyTo mXnew x
    copyTo mDxdtNew dxdt
  return res

/-- `initialize( system , x , t )` (`OI/stepper/controlled_runge_kutta.hpp:814-820`) -/
def fsalCtrlInitialize (sys : Sys K V W) (x : Loc) (t : K) : StepM K V W Unit := do
  callSys sys x mCtrlDxdt t
  setFlag mCtrlFirst false

/-- `reset()` (`OI/stepper/controlled_runge_kutta.hpp:789-792`) -/
def fsalCtrlReset : StepM K V W Unit := setFlag mCtrlFirst true

/-- FSAL version 1, `try_step( sys , x , t , dt )` (`OI/stepper/controlled_runge_kutta.hpp:616-620,895-903`);
`resized` is the result of `m_dxdt_resizer.adjust_size`.
(Version 2, `try_step( sys , in , t , out , dt )`, `OI/stepper/controlled_runge_kutta.hpp:677-686`, calls an overload
with six arguments that does not exist in this class; it cannot be instantiated.) -/
def fsalTry1 (P : CtrlParams K V) (impl : FsalErrImpl K V W) (resized : Bool) (sys : Sys K V W) (x : Loc) (t dt : K) :
    StepM K V W (TryOut K) := do
  if resized || (← getFlag mCtrlFirst) then fsalCtrlInitialize sys x t
  fsalTry3 P impl sys x mCtrlDxdt t dt

end FsalCtrl
end Verif
