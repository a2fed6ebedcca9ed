import Verif.Model.ControlledRk
import Verif.Model.DenseRk

/-!
# `rosenbrock4`, `rosenbrock4_controller`, `rosenbrock4_dense_output`

`OI` abbreviates `/repo/include/boost/numeric/odeint`.

Simplifications: the element-wise loops `for( i )` of `do_step` are written as linear combinations of states (the
order of the roundings in `( c31 * g1 + c32 * g2 ) / dt` is not represented); factorization and substitution are
the functions of ublas, which are not part of the repository: `solve c J b` stands for the vector that
`lu_substitute` leaves in place of `b` after `lu_factorize` of `c * 1 - J`.  The matrix `m_jac` and the permutation
`m_pm` are overwritten at the beginning of every step and not read afterwards; they are values here.
-/

namespace Verif
variable {K V W Mat : Type}

/-- The coefficients of the method (`OI/stepper/rosenbrock4.hpp:107-120`). -/
structure RosCoef (K : Type) where
  (gamma : K)
  (d1 d2 d3 d4 : K)
  (c2 c3 c4 : K)
  (c21 : K)
  (a21 : K)
  (c31 c32 : K)
  (a31 a32 : K)
  (c41 c42 c43 : K)
  (a41 a42 a43 : K)
  (c51 c52 c53 c54 : K)
  (a51 a52 a53 a54 : K)
  (c61 c62 c63 c64 c65 : K)
  (d21 d22 d23 d24 d25 : K)
  (d31 d32 d33 d34 d35 : K)

/-- `default_rosenbrock_coefficients` (`OI/stepper/rosenbrock4.hpp:61-105`); the decimal numbers are quotients of
integers here. -/
def defaultRosenbrock [Div K] [IntCast K] : RosCoef K where
  gamma := frac 25 100
  d1 := frac 25 100
  d2 := frac (-1043) 10000
  d3 := frac 1035 10000
  d4 := frac 3620000000000023 100000000000000000
  c2 := frac 386 1000
  c3 := frac 21 100
  c4 := frac 63 100
  c21 := frac (-56688) 10000
  a21 := frac 1544 1000
  c31 := frac (-2430093356833875) 1000000000000000
  c32 := frac (-2063599157091915) 10000000000000000
  a31 := frac 9466785280815826 10000000000000000
  a32 := frac 2557011698983284 10000000000000000
  c41 := frac (-1073529058151375) 10000000000000000
  c42 := frac (-9594562251023355) 1000000000000000
  c43 := frac (-2047028614809616) 100000000000000
  a41 := frac 3314825187068521 1000000000000000
  a42 := frac 2896124015972201 1000000000000000
  a43 := frac 9986419139977817 10000000000000000
  c51 := frac 7496443313967647 1000000000000000
  c52 := frac (-1024680431464352) 100000000000000
  c53 := frac (-3399990352819905) 100000000000000
  c54 := frac 117089089320616 10000000000000
  a51 := frac 1221224509226641 1000000000000000
  a52 := frac 6019134481288629 1000000000000000
  a53 := frac 1253708332932087 100000000000000
  a54 := frac (-687886036105895) 1000000000000000
  c61 := frac 8083246795921522 1000000000000000
  c62 := frac (-7981132988064893) 1000000000000000
  c63 := frac (-3152159432874371) 100000000000000
  c64 := frac 1631930543123136 100000000000000
  c65 := frac (-6058818238834054) 1000000000000000
  d21 := frac 1012623508344586 100000000000000
  d22 := frac (-7487995877610167) 1000000000000000
  d23 := frac (-3480091861555747) 100000000000000
  d24 := frac (-7992771707568823) 1000000000000000
  d25 := frac 1025137723295662 1000000000000000
  d31 := frac (-6762803392801253) 10000000000000000
  d32 := frac 6087714651680015 1000000000000000
  d33 := frac 1643084320892478 100000000000000
  d34 := frac 2476722511418386 100000000000000
  d35 := frac (-6594389125716872) 1000000000000000

/-- The Jacobian of the user's system, `sys.second( x , J , t , dfdt )`: computes the matrix and the time derivative of
the right-hand side; may have side effects or throw. -/
abbrev Jac (K V W Mat : Type) := V → K → M W (Mat × V)

/-- `jacobi_func( x , m_jac , t , dfdt )`; the matrix is returned. -/
def callJac (jac : Jac K V W Mat) (src dfdt : Loc) (t : K) : StepM K V W Mat := fun h =>
  match jac (h.state src) t h.world with
  | .ok r w => .ok r.1 (h.put dfdt r.2 w)
  | .err e w => .err e (h.withWorld w)
  | .ub => .ub
  | .div => .div

/-- `lu_substitute( m_jac , m_pm , v )`: the solution replaces the right-hand side. -/
def solveIn (solve : V → V) (l : Loc) : StepM K V W Unit := fun h => .ok () (h.set l (solve (h.state l)))

/-! ## Members (`OI/stepper/rosenbrock4.hpp:330-340`) -/

/-- `m_dfdt` -/
def rDfdt : Loc := .priv .rk 0
/-- `m_dxdt` -/
def rDxdt : Loc := .priv .rk 1
/-- `m_dxdtnew` -/
def rDxdtNew : Loc := .priv .rk 2
/-- `m_xtmp` -/
def rXtmp : Loc := .priv .rk 3
/-- `m_x_err` -/
def rXerr : Loc := .priv .rk 4
/-- `m_g1`, ..., `m_g5` -/
def rG (i : ℕ) : Loc := .priv .ros i
/-- `m_cont3` -/
def rCont3 : Loc := .priv .ros 10
/-- `m_cont4` -/
def rCont4 : Loc := .priv .ros 11

section Step
variable [Add K] [Sub K] [Mul K] [Div K] [IntCast K] [StateOps K V]

/-- `do_step( system , x , t , xout , dt , xerr )` (`OI/stepper/rosenbrock4.hpp:168-238`) -/
def rosDoStep6 (C : RosCoef K) (solve : K → Mat → V → V) (sys : Sys K V W) (jac : Jac K V W Mat)
    (x : Loc) (t : K) (xout : Loc) (dt : K) (xerr : Loc) : StepM K V W Unit := do
  callSys sys x rDxdt t
  let J ← callJac jac x rDfdt t
  let s := solve (lit 1 / C.gamma / dt) J
  linTo (rG 1) [(lit 1, rDxdt), (dt * C.d1, rDfdt)]
  solveIn s (rG 1)
  linTo rXtmp [(lit 1, x), (C.a21, rG 1)]
  callSys sys rXtmp rDxdtNew (t + C.c2 * dt)
  linTo (rG 2) [(lit 1, rDxdtNew), (dt * C.d2, rDfdt), (C.c21 / dt, rG 1)]
  solveIn s (rG 2)
  linTo rXtmp [(lit 1, x), (C.a31, rG 1), (C.a32, rG 2)]
  callSys sys rXtmp rDxdtNew (t + C.c3 * dt)
  linTo (rG 3) [(lit 1, rDxdtNew), (dt * C.d3, rDfdt), (C.c31 / dt, rG 1), (C.c32 / dt, rG 2)]
  solveIn s (rG 3)
  linTo rXtmp [(lit 1, x), (C.a41, rG 1), (C.a42, rG 2), (C.a43, rG 3)]
  callSys sys rXtmp rDxdtNew (t + C.c4 * dt)
  linTo (rG 4) [(lit 1, rDxdtNew), (dt * C.d4, rDfdt), (C.c41 / dt, rG 1), (C.c42 / dt, rG 2), (C.c43 / dt, rG 3)]
  solveIn s (rG 4)
  linTo rXtmp [(lit 1, x), (C.a51, rG 1), (C.a52, rG 2), (C.a53, rG 3), (C.a54, rG 4)]
  callSys sys rXtmp rDxdtNew (t + dt)
  linTo (rG 5) [(lit 1, rDxdtNew), (C.c51 / dt, rG 1), (C.c52 / dt, rG 2), (C.c53 / dt, rG 3), (C.c54 / dt, rG 4)]
  solveIn s (rG 5)
  linTo rXtmp [(lit 1, rXtmp), (lit 1, rG 5)]
  callSys sys rXtmp rDxdtNew (t + dt)
  linTo xerr [(lit 1, rDxdtNew), (C.c61 / dt, rG 1), (C.c62 / dt, rG 2), (C.c63 / dt, rG 3), (C.c64 / dt, rG 4),
    (C.c65 / dt, rG 5)]
  solveIn s xerr
  linTo xout [(lit 1, rXtmp), (lit 1, xerr)]

/-- `do_step( system , x , t , dt , xerr )` (`OI/stepper/rosenbrock4.hpp:240-244`) -/
def rosDoStep5 (C : RosCoef K) (solve : K → Mat → V → V) (sys : Sys K V W) (jac : Jac K V W Mat)
    (x : Loc) (t dt : K) (xerr : Loc) : StepM K V W Unit :=
  rosDoStep6 C solve sys jac x t x dt xerr

/-- `do_step( system , x , t , xout , dt )` (`OI/stepper/rosenbrock4.hpp:249-254`) -/
def rosDoStep3 (C : RosCoef K) (solve : K → Mat → V → V) (sys : Sys K V W) (jac : Jac K V W Mat)
    (x : Loc) (t : K) (xout : Loc) (dt : K) : StepM K V W Unit :=
  rosDoStep6 C solve sys jac x t xout dt rXerr

/-- `do_step( system , x , t , dt )` (`OI/stepper/rosenbrock4.hpp:256-261`) -/
def rosDoStep1 (C : RosCoef K) (solve : K → Mat → V → V) (sys : Sys K V W) (jac : Jac K V W Mat)
    (x : Loc) (t dt : K) : StepM K V W Unit :=
  rosDoStep5 C solve sys jac x t dt rXerr

/-- `prepare_dense_output()` (`OI/stepper/rosenbrock4.hpp:263-271`) -/
def rosPrepare (C : RosCoef K) : StepM K V W Unit := do
  linTo rCont3 [(C.d21, rG 1), (C.d22, rG 2), (C.d23, rG 3), (C.d24, rG 4), (C.d25, rG 5)]
  linTo rCont4 [(C.d31, rG 1), (C.d32, rG 2), (C.d33, rG 3), (C.d34, rG 4), (C.d35, rG 5)]

/-- `calc_state( t , x , x_old , t_old , x_new , t_new )` (`OI/stepper/rosenbrock4.hpp:274-284`) -/
def rosCalcState (t : K) (x xOld : Loc) (tOld : K) (xNew : Loc) (tNew : K) : StepM K V W Unit :=
  let dt := tNew - tOld
  let s := (t - tOld) / dt
  let s1 := lit 1 - s
  linTo x [(s1, xOld), (s, xNew), (s * s1, rCont3), (s * s1 * s, rCont4)]

end Step

/-! ## `rosenbrock4_controller` -/

/-- The members that remember the last trial (`OI/stepper/rosenbrock4_controller.hpp:225-227`). -/
structure RosMem (K : Type) where
  /-- `m_first_step` -/
  first : Bool
  /-- `m_err_old` -/
  errOld : K
  /-- `m_dt_old` -/
  dtOld : K
  /-- `m_last_rejected` -/
  lastRejected : Bool

/-- The constructor (`OI/stepper/rosenbrock4_controller.hpp:59-72`). -/
def RosMem.new [IntCast K] : RosMem K := ⟨true, lit 0, lit 0, false⟩

/-- The parts of the controller that do not change: `m_max_dt` and the error measure. -/
structure RosParams (K V : Type) where
  O : NumOps K
  maxDt : K
  /-- `error( x , xold , xerr )` -/
  error : V → V → V → K

section Ctrl
variable [Add K] [Sub K] [Mul K] [Div K] [IntCast K]

/-- `error( x , xold , xerr )` for vectors of numbers, given as lists
(`OI/stepper/rosenbrock4_controller.hpp:74-88`); the loop -/
def rosErrorLoop (O : NumOps K) (atol rtol : K) : K → List K → List K → List K → K
  | err, x :: xs, xo :: xos, e :: es =>
      let sk := atol + rtol * O.max (O.abs xo) (O.abs x)
      rosErrorLoop O atol rtol (err + e * e / sk / sk) xs xos es
  | err, _, _, _ => err

/-- `error( x , xold , xerr )` (`OI/stepper/rosenbrock4_controller.hpp:74-88`) -/
def rosError (O : NumOps K) (sqrt : K → K) (atol rtol : K) (x xold xerr : List K) : K :=
  sqrt (rosErrorLoop O atol rtol (lit 0) x xold xerr / lit x.length)

/-- `safe` (`OI/stepper/rosenbrock4_controller.hpp:128`) -/
def rosSafe : K := frac 9 10

/-- `max( fac2 , min( fac1 , f ) )` with `fac1 = 5.0`, `fac2 = 1.0 / 6.0`
(`OI/stepper/rosenbrock4_controller.hpp:128,135-138,149-150`) -/
def rosClamp (O : NumOps K) (f : K) : K := O.max (lit 1 / lit 6) (O.min (lit 5) f)

/-- the computation of the step size and of the new memory in `try_step`, after the step was made
(`OI/stepper/rosenbrock4_controller.hpp:135-176`): (success, the new `dt`, the new memory) -/
def rosDecide (O : NumOps K) (maxDt : K) (m : RosMem K) (dt err : K) : Bool × K × RosMem K :=
  let fac := rosClamp O (O.pow err (frac 1 4) / rosSafe)
  let dtNew := dt / fac
  if O.le err (lit 1) then
    let dtNew :=
      if m.first then dtNew
      else
        let facPred := m.dtOld / dt * O.pow (err * err / m.errOld) (frac 1 4) / rosSafe
        dt / O.max fac (rosClamp O facPred)
    let dtNew :=
      if m.lastRejected then (if O.le (lit 0) dt then O.min dtNew dt else O.max dtNew dt) else dtNew
    (true, if !O.eq maxDt (lit 0) then O.time.minAbs maxDt dtNew else dtNew,
      ⟨false, O.max (frac 1 100) err, dt, false⟩)
  else (false, dtNew, ⟨m.first, m.errOld, m.dtOld, true⟩)

/-- location of `m_first_step` -/
def rFirst : Loc := .priv .ros 20
/-- location of `m_err_old` -/
def rErrOld : Loc := .priv .ros 21
/-- location of `m_dt_old` -/
def rDtOld : Loc := .priv .ros 22
/-- location of `m_last_rejected` -/
def rLastRej : Loc := .priv .ros 23

/-- the memory of the controller -/
def rosMem (h : Heap K V W) : RosMem K := ⟨h.flag rFirst, h.num rErrOld, h.num rDtOld, h.flag rLastRej⟩

/-- assignment to the members of the controller -/
def setRosMem (m : RosMem K) : StepM K V W Unit := do
  setFlag rFirst m.first
  setNum rErrOld m.errOld
  setNum rDtOld m.dtOld
  setFlag rLastRej m.lastRejected

variable [StateOps K V]

/-- `try_step( sys , x , t , xout , dt )` (`OI/stepper/rosenbrock4_controller.hpp:112-178`) -/
def rosTry5 (P : RosParams K V) (C : RosCoef K) (solve : K → Mat → V → V) (sys : Sys K V W) (jac : Jac K V W Mat)
    (x : Loc) (t : K) (xout : Loc) (dt : K) : StepM K V W (TryOut K) := do
  if !P.O.eq P.maxDt (lit 0) && P.O.time.lessWithSign P.maxDt dt dt then
    return ⟨false, t, P.maxDt⟩
  rosDoStep6 C solve sys jac x t xout dt mXerr
  let err ← (fun h => .ok (P.error (h.state xout) (h.state x) (h.state mXerr)) h : StepM K V W K)
  let m ← (fun h => .ok (rosMem h) h : StepM K V W (RosMem K))
  let r := rosDecide P.O P.maxDt m dt err
  setRosMem r.2.2
  return ⟨r.1, if r.1 then t + dt else t, r.2.1⟩

/-- `try_step( sys , x , t , dt )` (`OI/stepper/rosenbrock4_controller.hpp:98-109`) -/
def rosTry4 (P : RosParams K V) (C : RosCoef K) (solve : K → Mat → V → V) (sys : Sys K V W) (jac : Jac K V W Mat)
    (x : Loc) (t dt : K) : StepM K V W (TryOut K) := do
  let res ← rosTry5 P C solve sys jac x t mXnew dt
  if res.success then copyTo mXnew x
  return res

/-! ## `rosenbrock4_dense_output`

The members `m_x1`, `m_x2`, `m_current_state_x1`, `m_t`, `m_t_old`, `m_dt` and their accessors are those of
`dense_output_runge_kutta` (`OI/stepper/rosenbrock4_dense_output.hpp:124-196`). -/

/-- `initialize( x0 , t0 , dt0 )` (`OI/stepper/rosenbrock4_dense_output.hpp:67-74`) -/
def rosDenseInit (x0 : Loc) (t0 dt0 : K) : StepM K V W Unit := do
  let b ← getFlag mCurX1
  copyTo x0 (getCurrent b)
  setNum mT t0
  setNum mDt dt0

/-- body of the loop in `do_step` (`OI/stepper/rosenbrock4_dense_output.hpp:85-86`); `m_t` and `m_dt` are passed by
reference -/
def rosDenseBody (P : RosParams K V) (C : RosCoef K) (solve : K → Mat → V → V) (sys : Sys K V W)
    (jac : Jac K V W Mat) (s : Bool × ℕ) : StepM K V W (Bool × ℕ) := do
  let b ← getFlag mCurX1
  let t ← getNum mT
  let dt ← getNum mDt
  let r ← rosTry5 P C solve sys jac (getCurrent b) t (getOld b) dt
  setNum mT r.t
  setNum mDt r.dt
  let c ← failedStepChecker defaultMaxSteps s.2
  return (r.success, c)

/-- `do_step( system )` (`OI/stepper/rosenbrock4_dense_output.hpp:76-92`) -/
noncomputable def rosDenseDoStep (P : RosParams K V) (C : RosCoef K) (solve : K → Mat → V → V) (sys : Sys K V W)
    (jac : Jac K V W Mat) : StepM K V W (K × K) := do
  let t ← getNum mT
  setNum mTOld t
  let s ← rosDenseBody P C solve sys jac (false, 0)
  let _ ← whileM (fun s : Bool × ℕ => !s.1) (rosDenseBody P C solve sys jac) s
  rosPrepare C
  toggleCurrentState
  let told ← getNum mTOld
  let tnew ← getNum mT
  return (told, tnew)

/-- `calc_state( t , x )` (`OI/stepper/rosenbrock4_dense_output.hpp:98-110`) -/
def rosDenseCalcState (t : K) (x : Loc) : StepM K V W Unit := do
  let b ← getFlag mCurX1
  let told ← getNum mTOld
  let tnew ← getNum mT
  rosCalcState t x (getOld b) told (getCurrent b) tnew

end Ctrl
end Verif
