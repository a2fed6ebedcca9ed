import Verif.Model.ControlledRk
import Verif.Model.Integrate

/-!
# `dense_output_runge_kutta`

`OI` abbreviates `/repo/include/boost/numeric/odeint`.
-/

namespace Verif
variable {K V W : Type}

/-- Overwrite a scalar member. -/
def Heap.putNum (h : Heap K V W) (l : Loc) (a : K) : Heap K V W :=
  ⟨h.state, Function.update h.num l a, h.flag, h.nat, h.world⟩

/-- assignment to a scalar member -/
def setNum (l : Loc) (a : K) : StepM K V W Unit := fun h => .ok () (h.putNum l a)

/-- read a scalar member -/
def getNum (l : Loc) : StepM K V W K := fun h => .ok (h.num l) h

/-! ## Members (`OI/stepper/dense_output_runge_kutta.hpp:256-260,459-465`) -/

/-- `m_x1` -/
def mX1 : Loc := .priv .dense 0
/-- `m_x2` -/
def mX2 : Loc := .priv .dense 1
/-- `m_dxdt1` -/
def mDxdt1 : Loc := .priv .dense 2
/-- `m_dxdt2` -/
def mDxdt2 : Loc := .priv .dense 3
/-- `m_current_state_x1` -/
def mCurX1 : Loc := .priv .dense 4
/-- `m_is_deriv_initialized` -/
def mDerivInit : Loc := .priv .dense 5
/-- `m_t` -/
def mT : Loc := .priv .dense 6
/-- `m_t_old` -/
def mTOld : Loc := .priv .dense 7
/-- `m_dt` -/
def mDt : Loc := .priv .dense 8

/-- `get_current_state()` (`OI/stepper/dense_output_runge_kutta.hpp:223-231,413-421`); the argument is
`m_current_state_x1` -/
def getCurrent (b : Bool) : Loc := if b then mX1 else mX2
/-- `get_old_state()` (`OI/stepper/dense_output_runge_kutta.hpp:233-241,423-431`) -/
def getOld (b : Bool) : Loc := if b then mX2 else mX1
/-- `get_current_deriv()` (`OI/stepper/dense_output_runge_kutta.hpp:433-441`) -/
def getCurrentDeriv (b : Bool) : Loc := if b then mDxdt1 else mDxdt2
/-- `get_old_deriv()` (`OI/stepper/dense_output_runge_kutta.hpp:443-451`) -/
def getOldDeriv (b : Bool) : Loc := if b then mDxdt2 else mDxdt1

/-- `toggle_current_state()` (`OI/stepper/dense_output_runge_kutta.hpp:243-246,454-457`) -/
def toggleCurrentState : StepM K V W Unit := do
  let b ← getFlag mCurX1
  setFlag mCurX1 (!b)

/-! ## Accessors -/

/-- `current_state()` (`OI/stepper/dense_output_runge_kutta.hpp:179-182,385-388`) -/
def currentState (h : Heap K V W) : V := h.state (getCurrent (h.flag mCurX1))
/-- `current_time()` (`OI/stepper/dense_output_runge_kutta.hpp:188-191,390-393`) -/
def currentTime (h : Heap K V W) : K := h.num mT
/-- `previous_state()` (`OI/stepper/dense_output_runge_kutta.hpp:197-200,395-398`) -/
def previousState (h : Heap K V W) : V := h.state (getOld (h.flag mCurX1))
/-- `previous_time()` (`OI/stepper/dense_output_runge_kutta.hpp:206-209,400-403`) -/
def previousTime (h : Heap K V W) : K := h.num mTOld
/-- `current_time_step()` (`OI/stepper/dense_output_runge_kutta.hpp:215-218,405-408`) -/
def currentTimeStep (h : Heap K V W) : K := h.num mDt

/-! ## The version for a basic stepper -/

/-- `initialize( x0 , t0 , dt0 )` (`OI/stepper/dense_output_runge_kutta.hpp:105-112`) -/
def denseInit (x0 : Loc) (t0 dt0 : K) : StepM K V W Unit := do
  let b ← getFlag mCurX1
  copyTo x0 (getCurrent b)
  setNum mT t0
  setNum mDt dt0

section Basic
variable [Add K] [Sub K] [IntCast K] [StateOps K V]

/-- `do_step( system )` (`OI/stepper/dense_output_runge_kutta.hpp:122-131`) -/
def denseDoStep (impl : StepImpl K V W) (sys : Sys K V W) : StepM K V W (K × K) := do
  let b ← getFlag mCurX1
  let t ← getNum mT
  let dt ← getNum mDt
  doStep3 impl sys (getCurrent b) t (getOld b) dt
  let t ← getNum mT
  setNum mTOld t
  let dt ← getNum mDt
  setNum mT (t + dt)
  toggleCurrentState
  let told ← getNum mTOld
  let tnew ← getNum mT
  return (told, tnew)

/-- `calc_state( t , x )` with a non-const `x` (`OI/stepper/dense_output_runge_kutta.hpp:142-151`); the stepper is
`euler`, the only basic stepper with a `calc_state`.  `teq` is the comparison of times. -/
def denseCalcState (teq : K → K → Bool) (t : K) (x : Loc) : StepM K V W Unit := do
  let b ← getFlag mCurX1
  let tcur ← getNum mT
  if teq t tcur then copyTo (getCurrent b) x
  let told ← getNum mTOld
  eulerCalcState x t (getOld b) told

/-- `calc_state( t , x )` with a const range `x` (`OI/stepper/dense_output_runge_kutta.hpp:159-163`) -/
def denseCalcStateRange (t : K) (x : Loc) : StepM K V W Unit := do
  let b ← getFlag mCurX1
  let told ← getNum mTOld
  eulerCalcState x t (getOld b) told

end Basic

/-! ## The version for a controlled FSAL stepper -/

/-- `initialize( x0 , t0 , dt0 )` (`OI/stepper/dense_output_runge_kutta.hpp:313-321`) -/
def fsalDenseInit (x0 : Loc) (t0 dt0 : K) : StepM K V W Unit := do
  let b ← getFlag mCurX1
  copyTo x0 (getCurrent b)
  setNum mT t0
  setNum mDt dt0
  setFlag mDerivInit false

section Controlled
variable [Add K]

/-- body of the loop in `do_step` (`OI/stepper/dense_output_runge_kutta.hpp:337-341`); `try_step` receives `m_t` and
`m_dt` by reference; the argument is (`res == success`, counter of the `fail_checker`) -/
def fsalDenseBody (P : CtrlParams K V) (impl : FsalErrImpl K V W) (sys : Sys K V W) (s : Bool × ℕ) :
    StepM K V W (Bool × ℕ) := do
  let b ← getFlag mCurX1
  let t ← getNum mT
  let dt ← getNum mDt
  let r ← fsalTry4 P impl sys (getCurrent b) (getCurrentDeriv b) t (getOld b) (getOldDeriv b) dt
  setNum mT r.t
  setNum mDt r.dt
  let c ← failedStepChecker defaultMaxSteps s.2
  return (r.success, c)

/-- the loop `do { ... } while( res == fail )` (`OI/stepper/dense_output_runge_kutta.hpp:336-342`) -/
noncomputable def fsalDenseLoop (P : CtrlParams K V) (impl : FsalErrImpl K V W) (sys : Sys K V W) :
    StepM K V W (Bool × ℕ) := do
  let s ← fsalDenseBody P impl sys (false, 0)
  whileM (fun s : Bool × ℕ => !s.1) (fsalDenseBody P impl sys) s

/-- the evaluation of the derivative at the beginning of `do_step`
(`OI/stepper/dense_output_runge_kutta.hpp:326-331`) -/
def fsalDenseDeriv (sys : Sys K V W) : StepM K V W Unit := do
  let i ← getFlag mDerivInit
  if !i then
    let b ← getFlag mCurX1
    let t ← getNum mT
    callSys sys (getCurrent b) (getCurrentDeriv b) t
    setFlag mDerivInit true

/-- `do_step( system )` (`OI/stepper/dense_output_runge_kutta.hpp:323-345`) -/
noncomputable def fsalDenseDoStep (P : CtrlParams K V) (impl : FsalErrImpl K V W) (sys : Sys K V W) :
    StepM K V W (K × K) := do
  fsalDenseDeriv sys
  let t ← getNum mT
  setNum mTOld t
  let _ ← fsalDenseLoop P impl sys
  toggleCurrentState
  let told ← getNum mTOld
  let tnew ← getNum mT
  return (told, tnew)

/-- `calc_state( t , x )` (`OI/stepper/dense_output_runge_kutta.hpp:351-363`); the stepper is `runge_kutta_dopri5` -/
def fsalDenseCalcState [Sub K] [Mul K] [Div K] [IntCast K] [StateOps K V] (t : K) (x : Loc) : StepM K V W Unit := do
  let b ← getFlag mCurX1
  let told ← getNum mTOld
  let tnew ← getNum mT
  dopri5CalcState t x (getOld b) (getOldDeriv b) told (getCurrentDeriv b) tnew

end Controlled
end Verif
