import Verif.Model.Heap

/-!
# Explicit Runge-Kutta steppers

`OI` abbreviates `/repo/include/boost/numeric/odeint`.  Time, value and derivative-component types are
identified (`Time = Value = K`, the default of the library); the arithmetic on `K` is arbitrary, no law is
assumed.  `system` is modelled by `Sys`.
-/

namespace Verif

variable {K V W : Type}

/-! ## Members -/

/-- `m_dxdt` of the base classes (`OI/stepper/base/explicit_stepper_base.hpp:240-250`,
`explicit_error_stepper_base.hpp:327`, `explicit_error_stepper_fsal_base.hpp:354`) -/
def mDxdt : Loc := .priv .base 0
/-- `m_first_call` (`OI/stepper/base/explicit_error_stepper_fsal_base.hpp:349`) -/
def mFirstCall : Loc := .priv .base 1

/-- `m_x_tmp` of the Runge-Kutta steppers -/
def mXTmp : Loc := .priv .rk 0
/-- `m_F[i]` (`OI/stepper/explicit_generic_rk.hpp:180-185`, `explicit_error_generic_rk.hpp:168`) -/
def mF (i : ℕ) : Loc := .priv .rk (i + 1)
/-- `m_k2`, ..., `m_k6` of `runge_kutta_dopri5` and `runge_kutta_cash_karp54_classic`
(`OI/stepper/runge_kutta_dopri5.hpp:305`, `runge_kutta_cash_karp54_classic.hpp:206`) -/
def mK (i : ℕ) : Loc := .priv .rk (i + 1)
/-- `m_dxt`, `m_dxm`, `m_dxh` of `runge_kutta4_classic` (`OI/stepper/runge_kutta4_classic.hpp:163-165`) -/
def mDxt : Loc := .priv .rk 1
@[inherit_doc mDxt] def mDxm : Loc := .priv .rk 2
@[inherit_doc mDxt] def mDxh : Loc := .priv .rk 3
/-- `m_dxdt_tmp` of `runge_kutta_dopri5` (`OI/stepper/runge_kutta_dopri5.hpp:306`) -/
def mDxdtTmp : Loc := .priv .rk 100

/-! ## The base classes -/

/-- `do_step_impl( system , in , dxdt , t , out , dt )` of an explicit stepper -/
abbrev StepImpl (K V W : Type) := Sys K V W → Loc → Loc → K → Loc → K → StepM K V W Unit

/-- `do_step_impl( system , in , dxdt , t , out , dt , xerr )` of an explicit error stepper -/
abbrev ErrStepImpl (K V W : Type) := Sys K V W → Loc → Loc → K → Loc → K → Loc → StepM K V W Unit

/-- version 1, `do_step( sys , x , t , dt )`
(`OI/stepper/base/explicit_stepper_base.hpp:111-124,223-230`, `explicit_error_stepper_base.hpp:122-135,288-295`) -/
def doStep1 (impl : StepImpl K V W) (sys : Sys K V W) (x : Loc) (t dt : K) : StepM K V W Unit := do
  callSys sys x mDxdt t
  impl sys x mDxdt t x dt

/-- version 2, `do_step( sys , x , dxdt , t , dt )`
(`OI/stepper/base/explicit_stepper_base.hpp:133-153`, `explicit_error_stepper_base.hpp:146-166`) -/
def doStep2 (impl : StepImpl K V W) (sys : Sys K V W) (x dxdt : Loc) (t dt : K) : StepM K V W Unit :=
  impl sys x dxdt t x dt

/-- version 3, `do_step( sys , in , t , out , dt )`
(`OI/stepper/base/explicit_stepper_base.hpp:161-168`, `explicit_error_stepper_base.hpp:177-185`) -/
def doStep3 (impl : StepImpl K V W) (sys : Sys K V W) (inp : Loc) (t : K) (out : Loc) (dt : K) :
    StepM K V W Unit := do
  callSys sys inp mDxdt t
  impl sys inp mDxdt t out dt

/-- version 4, `do_step( sys , in , dxdt , t , out , dt )`
(`OI/stepper/base/explicit_stepper_base.hpp:176-196`, `explicit_error_stepper_base.hpp:194-214`) -/
def doStep4 (impl : StepImpl K V W) (sys : Sys K V W) (inp dxdt : Loc) (t : K) (out : Loc) (dt : K) :
    StepM K V W Unit :=
  impl sys inp dxdt t out dt

/-- version 5, `do_step( sys , x , t , dt , xerr )`
(`OI/stepper/base/explicit_error_stepper_base.hpp:221-234,297-304`) -/
def doStep5 (impl : ErrStepImpl K V W) (sys : Sys K V W) (x : Loc) (t dt : K) (xerr : Loc) :
    StepM K V W Unit := do
  callSys sys x mDxdt t
  impl sys x mDxdt t x dt xerr

/-- version 6, `do_step( sys , x , dxdt , t , dt , xerr )`
(`OI/stepper/base/explicit_error_stepper_base.hpp:244-249`) -/
def doStep6 (impl : ErrStepImpl K V W) (sys : Sys K V W) (x dxdt : Loc) (t dt : K) (xerr : Loc) :
    StepM K V W Unit :=
  impl sys x dxdt t x dt xerr

/-- version 7, `do_step( sys , in , t , out , dt , xerr )`
(`OI/stepper/base/explicit_error_stepper_base.hpp:257-264`) -/
def doStep7 (impl : ErrStepImpl K V W) (sys : Sys K V W) (inp : Loc) (t : K) (out : Loc) (dt : K)
    (xerr : Loc) : StepM K V W Unit := do
  callSys sys inp mDxdt t
  impl sys inp mDxdt t out dt xerr

/-- version 8, `do_step( sys , in , dxdt , t , out , dt , xerr )`
(`OI/stepper/base/explicit_error_stepper_base.hpp:272-276`) -/
def doStep8 (impl : ErrStepImpl K V W) (sys : Sys K V W) (inp dxdt : Loc) (t : K) (out : Loc) (dt : K)
    (xerr : Loc) : StepM K V W Unit :=
  impl sys inp dxdt t out dt xerr

section Steppers
variable [Add K] [Sub K] [Mul K] [Div K] [IntCast K] [StateOps K V]

/-! ## Euler -/

/-- `euler::do_step_impl` (`OI/stepper/euler.hpp:78-84`) -/
def eulerImpl : StepImpl K V W := fun _sys inp dxdt _t out dt =>
  linTo out [(lit 1, inp), (dt, dxdt)]

/-- `euler::calc_state` (`OI/stepper/euler.hpp:86-92`) -/
def eulerCalcState (x : Loc) (t : K) (oldState : Loc) (tOld : K) : StepM K V W Unit := do
  let delta := t - tOld
  linTo x [(lit 1, oldState), (delta, mDxdt)]

/-! ## The generic Runge-Kutta algorithm -/

/-- A Butcher tableau as the code stores it: `a` has `StageCount - 1` rows (row `i` with `i+1` entries),
`b` and `c` have `StageCount` entries (`OI/stepper/detail/generic_rk_algorithm.hpp:79-95`). -/
structure Tableau (K : Type) where
  a : List (List K)
  b : List K
  c : List K

/-- `m_stages`: stage `i` (from 1) holds `c[i-1]` and row `a[i-1]`, the last stage holds `b`
(`OI/stepper/detail/generic_rk_algorithm.hpp:154-160`). -/
def Tableau.stages (T : Tableau K) : List (K × List K) := T.c.zip (T.a ++ [T.b])

/-- The state arguments of `generic_rk_call_algebra< stage_number >` after the input:
`dxdt , F[0] , ... , F[stage_number-2]` (`OI/stepper/detail/generic_rk_call_algebra.hpp:27-263`) -/
def stageArgs (dxdt : Loc) (n : ℕ) : List Loc := dxdt :: (List.range (n - 1)).map mF

/-- `calculate_stage::operator()` for stage number `n` of `count`
(`OI/stepper/detail/generic_rk_algorithm.hpp:191-217`; the factors `a[i]*dt` are formed in
`OI/stepper/detail/generic_rk_operations.hpp:27-180`) -/
def calculateStage (sys : Sys K V W) (count n : ℕ) (st : K × List K) (inp dxdt : Loc) (t : K) (out : Loc)
    (dt : K) : StepM K V W Unit := do
  if n > 1 then
    callSys sys mXTmp (mF (n - 2)) (t + st.1 * dt)
  let args := (lit 1, inp) :: (st.2.map (· * dt)).zip (stageArgs dxdt n)
  if n < count then linTo mXTmp args else linTo out args

/-- the `boost::fusion::for_each` over the stages (`OI/stepper/detail/generic_rk_algorithm.hpp:232-234`) -/
def runStages (sys : Sys K V W) (count : ℕ) (inp dxdt : Loc) (t : K) (out : Loc) (dt : K) :
    ℕ → List (K × List K) → StepM K V W Unit
  | _, [] => pure ()
  | n, st :: rest => do
      calculateStage sys count n st inp dxdt t out dt
      runStages sys count inp dxdt t out dt (n + 1) rest

/-- `explicit_generic_rk::do_step_impl`, `explicit_error_generic_rk::do_step_impl` without error estimate
(`OI/stepper/explicit_generic_rk.hpp:145-153`, `explicit_error_generic_rk.hpp:128-136`,
`detail/generic_rk_algorithm.hpp:225-235`) -/
def genericRkImpl (T : Tableau K) : StepImpl K V W := fun sys inp dxdt t out dt =>
  runStages sys T.b.length inp dxdt t out dt 1 T.stages

/-- `explicit_error_generic_rk::do_step_impl` with error estimate
(`OI/stepper/explicit_error_generic_rk.hpp:115-125`, `detail/generic_rk_operations.hpp:180-245`) -/
def genericErrRkImpl (T : Tableau K) (b2 : List K) : ErrStepImpl K V W := fun sys inp dxdt t out dt xerr => do
  genericRkImpl T sys inp dxdt t out dt
  linTo xerr ((b2.map (· * dt)).zip (stageArgs dxdt T.b.length))

/-- `rk4_coefficients_*` (`OI/stepper/runge_kutta4.hpp:44-97`) -/
def rk4Tableau : Tableau K where
  a := [[frac 1 2], [lit 0, frac 1 2], [lit 0, lit 0, lit 1]]
  b := [frac 1 6, frac 1 3, frac 1 3, frac 1 6]
  c := [lit 0, frac 1 2, frac 1 2, lit 1]

/-- `runge_kutta4::do_step_impl` (`OI/stepper/runge_kutta4.hpp:112-145`) -/
def rk4Impl : StepImpl K V W := genericRkImpl rk4Tableau

/-- `rk54_ck_coefficients_*` (`OI/stepper/runge_kutta_cash_karp54.hpp:45-113,130-142`) -/
def cashKarpTableau : Tableau K where
  a := [[frac 1 5],
        [frac 3 40, frac 9 40],
        [frac 3 10, frac (-9) 10, frac 6 5],
        [frac (-11) 54, frac 5 2, frac (-70) 27, frac 35 27],
        [frac 1631 55296, frac 175 512, frac 575 13824, frac 44275 110592, frac 253 4096]]
  b := [frac 37 378, lit 0, frac 250 621, frac 125 594, lit 0, frac 512 1771]
  c := [lit 0, frac 1 5, frac 3 10, frac 3 5, lit 1, frac 7 8]

/-- `rk54_ck_coefficients_db` (`OI/stepper/runge_kutta_cash_karp54.hpp:115-127`) -/
def cashKarpDb : List K :=
  [frac 37 378 - frac 2825 27648, lit 0, frac 250 621 - frac 18575 48384,
   frac 125 594 - frac 13525 55296, frac (-277) 14336, frac 512 1771 - frac 1 4]

/-- `runge_kutta_cash_karp54::do_step_impl` (`OI/stepper/runge_kutta_cash_karp54.hpp:156-192`) -/
def cashKarpImpl : StepImpl K V W := genericRkImpl cashKarpTableau
/-- `runge_kutta_cash_karp54::do_step_impl` with error estimate (`OI/stepper/runge_kutta_cash_karp54.hpp:156-192`) -/
def cashKarpErrImpl : ErrStepImpl K V W := genericErrRkImpl cashKarpTableau cashKarpDb

/-- `rk78_coefficients_*` (`OI/stepper/runge_kutta_fehlberg78.hpp:45-241,265-284`) -/
def fehlbergTableau : Tableau K where
  a := [[frac 2 27],
        [frac 1 36, frac 1 12],
        [frac 1 24, lit 0, frac 1 8],
        [frac 5 12, lit 0, frac (-25) 16, frac 25 16],
        [frac 1 20, lit 0, lit 0, frac 1 4, frac 1 5],
        [frac (-25) 108, lit 0, lit 0, frac 125 108, frac (-65) 27, frac 125 54],
        [frac 31 300, lit 0, lit 0, lit 0, frac 61 225, frac (-2) 9, frac 13 900],
        [lit 2, lit 0, lit 0, frac (-53) 6, frac 704 45, frac (-107) 9, frac 67 90, lit 3],
        [frac (-91) 108, lit 0, lit 0, frac 23 108, frac (-976) 135, frac 311 54, frac (-19) 60,
          frac 17 6, frac (-1) 12],
        [frac 2383 4100, lit 0, lit 0, frac (-341) 164, frac 4496 1025, frac (-301) 82, frac 2133 4100,
          frac 45 82, frac 45 164, frac 18 41],
        [frac 3 205, lit 0, lit 0, lit 0, lit 0, frac (-6) 41, frac (-3) 205, frac (-3) 41, frac 3 41,
          frac 6 41, lit 0],
        [frac (-1777) 4100, lit 0, lit 0, frac (-341) 164, frac 4496 1025, frac (-289) 82, frac 2193 4100,
          frac 51 82, frac 33 164, frac 12 41, lit 0, lit 1]]
  b := [lit 0, lit 0, lit 0, lit 0, lit 0, frac 34 105, frac 9 35, frac 9 35, frac 9 280, frac 9 280,
        lit 0, frac 41 840, frac 41 840]
  c := [lit 0, frac 2 27, frac 1 9, frac 1 6, frac 5 12, frac 1 2, frac 5 6, frac 1 6, frac 2 3, frac 1 3,
        lit 1, lit 0, lit 1]

/-- `rk78_coefficients_db` (`OI/stepper/runge_kutta_fehlberg78.hpp:243-262`) -/
def fehlbergDb : List K :=
  [lit 0 - frac 41 840, lit 0, lit 0, lit 0, lit 0, lit 0, lit 0, lit 0, lit 0, lit 0,
   lit 0 - frac 41 840, frac 41 840, frac 41 840]

/-- `runge_kutta_fehlberg78::do_step_impl` (`OI/stepper/runge_kutta_fehlberg78.hpp:301-335`) -/
def fehlbergImpl : StepImpl K V W := genericRkImpl fehlbergTableau
/-- `runge_kutta_fehlberg78::do_step_impl` with error estimate (`OI/stepper/runge_kutta_fehlberg78.hpp:301-335`) -/
def fehlbergErrImpl : ErrStepImpl K V W := genericErrRkImpl fehlbergTableau fehlbergDb

/-! ## The classic implementations -/

/-- `runge_kutta4_classic::do_step_impl` (`OI/stepper/runge_kutta4_classic.hpp:87-138`) -/
def rk4ClassicImpl : StepImpl K V W := fun sys inp dxdt t out dt => do
  let dh := dt / lit 2
  let th := t + dh
  linTo mXTmp [(lit 1, inp), (dh, dxdt)]
  callSys sys mXTmp mDxt th
  linTo mXTmp [(lit 1, inp), (dh, mDxt)]
  callSys sys mXTmp mDxm th
  linTo mXTmp [(lit 1, inp), (dt, mDxm)]
  callSys sys mXTmp mDxh (t + dt)
  let dt6 := dt / lit 6
  let dt3 := dt / lit 3
  linTo out [(lit 1, inp), (dt6, dxdt), (dt3, mDxt), (dt3, mDxm), (dt6, mDxh)]

/-- `runge_kutta_cash_karp54_classic::do_step_impl` (`OI/stepper/runge_kutta_cash_karp54_classic.hpp:116-176`) -/
def cashKarpClassicImpl : StepImpl K V W := fun sys inp dxdt t out dt => do
  linTo mXTmp [(lit 1, inp), (dt * frac 1 5, dxdt)]
  callSys sys mXTmp (mK 2) (t + dt * frac 1 5)
  linTo mXTmp [(lit 1, inp), (dt * frac 3 40, dxdt), (dt * frac 9 40, mK 2)]
  callSys sys mXTmp (mK 3) (t + dt * frac 3 10)
  linTo mXTmp [(lit 1, inp), (dt * frac 3 10, dxdt), (dt * frac (-9) 10, mK 2), (dt * frac 6 5, mK 3)]
  callSys sys mXTmp (mK 4) (t + dt * frac 3 5)
  linTo mXTmp [(lit 1, inp), (dt * frac (-11) 54, dxdt), (dt * frac 5 2, mK 2),
    (dt * frac (-70) 27, mK 3), (dt * frac 35 27, mK 4)]
  callSys sys mXTmp (mK 5) (t + dt * lit 1)
  linTo mXTmp [(lit 1, inp), (dt * frac 1631 55296, dxdt), (dt * frac 175 512, mK 2),
    (dt * frac 575 13824, mK 3), (dt * frac 44275 110592, mK 4), (dt * frac 253 4096, mK 5)]
  callSys sys mXTmp (mK 6) (t + dt * frac 7 8)
  linTo out [(lit 1, inp), (dt * frac 37 378, dxdt), (dt * frac 250 621, mK 3), (dt * frac 125 594, mK 4),
    (dt * frac 512 1771, mK 6)]

/-- `runge_kutta_cash_karp54_classic::do_step_impl` with error estimate
(`OI/stepper/runge_kutta_cash_karp54_classic.hpp:92-112`) -/
def cashKarpClassicErrImpl : ErrStepImpl K V W := fun sys inp dxdt t out dt xerr => do
  let dc1 := frac 37 378 - frac 2825 27648
  let dc3 := frac 250 621 - frac 18575 48384
  let dc4 := frac 125 594 - frac 13525 55296
  let dc5 := frac (-277) 14336
  let dc6 := frac 512 1771 - frac 1 4
  cashKarpClassicImpl sys inp dxdt t out dt
  linTo xerr [(dt * dc1, dxdt), (dt * dc3, mK 3), (dt * dc4, mK 4), (dt * dc5, mK 5), (dt * dc6, mK 6)]

/-! ## Dormand-Prince 5 -/

/-- `runge_kutta_dopri5::do_step_impl` (`OI/stepper/runge_kutta_dopri5.hpp:91-158`) -/
def dopri5Impl (sys : Sys K V W) (inp dxdtIn : Loc) (t : K) (out dxdtOut : Loc) (dt : K) :
    StepM K V W Unit := do
  linTo mXTmp [(lit 1, inp), (dt * frac 1 5, dxdtIn)]
  callSys sys mXTmp (mK 2) (t + dt * frac 1 5)
  linTo mXTmp [(lit 1, inp), (dt * frac 3 40, dxdtIn), (dt * frac 9 40, mK 2)]
  callSys sys mXTmp (mK 3) (t + dt * frac 3 10)
  linTo mXTmp [(lit 1, inp), (dt * frac 44 45, dxdtIn), (dt * frac (-56) 15, mK 2), (dt * frac 32 9, mK 3)]
  callSys sys mXTmp (mK 4) (t + dt * frac 4 5)
  linTo mXTmp [(lit 1, inp), (dt * frac 19372 6561, dxdtIn), (dt * frac (-25360) 2187, mK 2),
    (dt * frac 64448 6561, mK 3), (dt * frac (-212) 729, mK 4)]
  callSys sys mXTmp (mK 5) (t + dt * frac 8 9)
  linTo mXTmp [(lit 1, inp), (dt * frac 9017 3168, dxdtIn), (dt * frac (-355) 33, mK 2),
    (dt * frac 46732 5247, mK 3), (dt * frac 49 176, mK 4), (dt * frac (-5103) 18656, mK 5)]
  callSys sys mXTmp (mK 6) (t + dt)
  linTo out [(lit 1, inp), (dt * frac 35 384, dxdtIn), (dt * frac 500 1113, mK 3),
    (dt * frac 125 192, mK 4), (dt * frac (-2187) 6784, mK 5), (dt * frac 11 84, mK 6)]
  callSys sys out dxdtOut (t + dt)

/-- the factors of the error estimate (`OI/stepper/runge_kutta_dopri5.hpp:166-177`) -/
def dopri5Dc : List K :=
  [frac 35 384 - frac 5179 57600, frac 500 1113 - frac 7571 16695, frac 125 192 - frac 393 640,
   frac (-2187) 6784 - frac (-92097) 339200, frac 11 84 - frac 187 2100, frac (-1) 40]

/-- `runge_kutta_dopri5::do_step_impl` with error estimate (`OI/stepper/runge_kutta_dopri5.hpp:162-199`);
`same_instance( dxdt_in , dxdt_out )` compares addresses (`OI/util/same_instance.hpp`) -/
def dopri5ErrImpl (sys : Sys K V W) (inp dxdtIn : Loc) (t : K) (out dxdtOut : Loc) (dt : K) (xerr : Loc) :
    StepM K V W Unit := do
  if dxdtIn = dxdtOut then
    copyTo dxdtIn mDxdtTmp
    dopri5Impl sys inp dxdtIn t out dxdtOut dt
    linTo xerr (((dopri5Dc : List K).map (dt * ·)).zip [mDxdtTmp, mK 3, mK 4, mK 5, mK 6, dxdtOut])
  else
    dopri5Impl sys inp dxdtIn t out dxdtOut dt
    linTo xerr (((dopri5Dc : List K).map (dt * ·)).zip [dxdtIn, mK 3, mK 4, mK 5, mK 6, dxdtOut])

/-- `b_i(theta)` for `i = 1,3,4,5,6,7` (`OI/stepper/runge_kutta_dopri5.hpp:231-258`) -/
def dopri5DenseB (theta : K) : List K :=
  let b1 := frac 35 384
  let b3 := frac 500 1113
  let b4 := frac 125 192
  let b5 := frac (-2187) 6784
  let b6 := frac 11 84
  let X1 := lit 5 * (lit 2558722523 - lit 31403016 * theta) / lit 11282082432
  let X3 := lit 100 * (lit 882725551 - lit 15701508 * theta) / lit 32700410799
  let X4 := lit 25 * (lit 443332067 - lit 31403016 * theta) / lit 1880347072
  let X5 := lit 32805 * (lit 23143187 - lit 3489224 * theta) / lit 199316789632
  let X6 := lit 55 * (lit 29972135 - lit 7076736 * theta) / lit 822651844
  let X7 := lit 10 * (lit 7414447 - lit 829305 * theta) / lit 29380423
  let thetaM1 := theta - lit 1
  let thetaSq := theta * theta
  let A := thetaSq * (lit 3 - lit 2 * theta)
  let B := thetaSq * thetaM1
  let C := thetaSq * thetaM1 * thetaM1
  let D := theta * thetaM1 * thetaM1
  [A * b1 - C * X1 + D, A * b3 + C * X3, A * b4 - C * X4, A * b5 + C * X5, A * b6 - C * X6, B + C * X7]

/-- `runge_kutta_dopri5::calc_state` (`OI/stepper/runge_kutta_dopri5.hpp:226-269`) -/
def dopri5CalcState (t : K) (x xOld derivOld : Loc) (tOld : K) (derivNew : Loc) (tNew : K) :
    StepM K V W Unit := do
  let dt := tNew - tOld
  let theta := (t - tOld) / dt
  linTo x ((lit 1, xOld) ::
    ((dopri5DenseB theta).map (dt * ·)).zip [derivOld, mK 3, mK 4, mK 5, mK 6, derivNew])

end Steppers

/-! ## The base class of FSAL steppers

`m_resizer.adjust_size` returns `true` when the temporary had to be resized; this is the argument
`resized` below (see `Model/Resizer`). -/

/-- `do_step_impl( system , in , dxdt_in , t , out , dxdt_out , dt )` of an FSAL stepper -/
abbrev FsalImpl (K V W : Type) := Sys K V W → Loc → Loc → K → Loc → Loc → K → StepM K V W Unit
/-- the version with error estimate -/
abbrev FsalErrImpl (K V W : Type) := Sys K V W → Loc → Loc → K → Loc → Loc → K → Loc → StepM K V W Unit

/-- Overwrite a boolean member. -/
def Heap.putFlag (h : Heap K V W) (l : Loc) (b : Bool) : Heap K V W :=
  ⟨h.state, h.num, Function.update h.flag l b, h.nat, h.world⟩

/-- assignment to a boolean member -/
def setFlag (l : Loc) (b : Bool) : StepM K V W Unit := fun h => .ok () (h.putFlag l b)

/-- read a boolean member -/
def getFlag (l : Loc) : StepM K V W Bool := fun h => .ok (h.flag l) h

/-- `initialize( system , x , t )` (`OI/stepper/base/explicit_error_stepper_fsal_base.hpp:293-299`) -/
def fsalInitialize (sys : Sys K V W) (x : Loc) (t : K) : StepM K V W Unit := do
  callSys sys x mDxdt t
  setFlag mFirstCall false

/-- `initialize( deriv )` (`OI/stepper/base/explicit_error_stepper_fsal_base.hpp:286-291`) -/
def fsalInitializeDeriv (deriv : Loc) : StepM K V W Unit := do
  copyTo deriv mDxdt
  setFlag mFirstCall false

/-- `reset()` (`OI/stepper/base/explicit_error_stepper_fsal_base.hpp:281-284`) -/
def fsalReset : StepM K V W Unit := setFlag mFirstCall true

/-- the guard of versions 1, 3, 5, 7 (`OI/stepper/base/explicit_error_stepper_fsal_base.hpp:180-183`) -/
def fsalPrepare (resized : Bool) (sys : Sys K V W) (x : Loc) (t : K) : StepM K V W Unit := do
  if resized || (← getFlag mFirstCall) then fsalInitialize sys x t

/-- version 1 (`OI/stepper/base/explicit_error_stepper_fsal_base.hpp:121-134,310-318`) -/
def fsalStep1 (impl : FsalImpl K V W) (resized : Bool) (sys : Sys K V W) (x : Loc) (t dt : K) :
    StepM K V W Unit := do
  fsalPrepare resized sys x t
  impl sys x mDxdt t x mDxdt dt

/-- version 2 (`OI/stepper/base/explicit_error_stepper_fsal_base.hpp:144-165`) -/
def fsalStep2 (impl : FsalImpl K V W) (sys : Sys K V W) (x dxdt : Loc) (t dt : K) : StepM K V W Unit := do
  setFlag mFirstCall true
  impl sys x dxdt t x dxdt dt

/-- version 3 (`OI/stepper/base/explicit_error_stepper_fsal_base.hpp:176-185`) -/
def fsalStep3 (impl : FsalImpl K V W) (resized : Bool) (sys : Sys K V W) (inp : Loc) (t : K) (out : Loc)
    (dt : K) : StepM K V W Unit := do
  fsalPrepare resized sys inp t
  impl sys inp mDxdt t out mDxdt dt

/-- version 4 (`OI/stepper/base/explicit_error_stepper_fsal_base.hpp:193-201`) -/
def fsalStep4 (impl : FsalImpl K V W) (sys : Sys K V W) (inp dxdtIn : Loc) (t : K) (out dxdtOut : Loc)
    (dt : K) : StepM K V W Unit := do
  setFlag mFirstCall true
  impl sys inp dxdtIn t out dxdtOut dt

/-- version 5 (`OI/stepper/base/explicit_error_stepper_fsal_base.hpp:212-225,320-328`) -/
def fsalStep5 (impl : FsalErrImpl K V W) (resized : Bool) (sys : Sys K V W) (x : Loc) (t dt : K)
    (xerr : Loc) : StepM K V W Unit := do
  fsalPrepare resized sys x t
  impl sys x mDxdt t x mDxdt dt xerr

/-- version 6 (`OI/stepper/base/explicit_error_stepper_fsal_base.hpp:235-241`) -/
def fsalStep6 (impl : FsalErrImpl K V W) (sys : Sys K V W) (x dxdt : Loc) (t dt : K) (xerr : Loc) :
    StepM K V W Unit := do
  setFlag mFirstCall true
  impl sys x dxdt t x dxdt dt xerr

/-- version 7 (`OI/stepper/base/explicit_error_stepper_fsal_base.hpp:251-259`) -/
def fsalStep7 (impl : FsalErrImpl K V W) (resized : Bool) (sys : Sys K V W) (inp : Loc) (t : K) (out : Loc)
    (dt : K) (xerr : Loc) : StepM K V W Unit := do
  fsalPrepare resized sys inp t
  impl sys inp mDxdt t out mDxdt dt xerr

/-- version 8 (`OI/stepper/base/explicit_error_stepper_fsal_base.hpp:267-273`) -/
def fsalStep8 (impl : FsalErrImpl K V W) (sys : Sys K V W) (inp dxdtIn : Loc) (t : K) (out dxdtOut : Loc)
    (dt : K) (xerr : Loc) : StepM K V W Unit := do
  setFlag mFirstCall true
  impl sys inp dxdtIn t out dxdtOut dt xerr

end Verif
