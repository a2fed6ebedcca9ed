import Verif.Model.Steppers

/-!
# `rotating_buffer`, `adams_bashforth`, `adams_moulton` and `adams_bashforth_moulton`

`OI` abbreviates `/repo/include/boost/numeric/odeint`.  The number of steps `N` is a template parameter of the code
(1 to 8); the functions are modelled for every `N`, the coefficient arrays for the eight existing ones.
-/

namespace Verif
variable {K V W : Type}

/-- Overwrite a counter. -/
def Heap.putNat (h : Heap K V W) (l : Loc) (n : ℕ) : Heap K V W :=
  ⟨h.state, h.num, h.flag, Function.update h.nat l n, h.world⟩

/-- write a counter member -/
def setNat (l : Loc) (n : ℕ) : StepM K V W Unit := fun h => .ok () (h.putNat l n)

/-- read a counter member -/
def getNat (l : Loc) : StepM K V W ℕ := fun h => .ok (h.nat l) h

/-! ## `rotating_buffer` -/

/-- `m_first` of the buffer `m_step_storage` (`OI/stepper/detail/rotating_buffer.hpp:73`) -/
def mFirst : Loc := .priv .multi 0
/-- `m_data[j]` (`OI/stepper/detail/rotating_buffer.hpp:64`) -/
def bufData (j : ℕ) : Loc := .priv .multi (j + 2)

/-- `get_index` (`OI/stepper/detail/rotating_buffer.hpp:68-71`); `dim = N` -/
def bufIndex (N first i : ℕ) : ℕ := (i + first) % N

/-- `operator[]( i )` (`OI/stepper/detail/rotating_buffer.hpp:44-52`): the object it refers to.  An index outside of the
array `m_data[N]` is undefined behaviour, and so is the remainder by 0. -/
def bufAt (N i : ℕ) : StepM K V W Loc := do
  let first ← getNat mFirst
  if N = 0 then M.ub
  else if bufIndex N first i < N then pure (bufData (bufIndex N first i)) else M.ub

/-- `rotate` (`OI/stepper/detail/rotating_buffer.hpp:54-60`) -/
def bufRotate (N : ℕ) : StepM K V W Unit := do
  let first ← getNat mFirst
  if first = 0 then setNat mFirst (N - 1) else setNat mFirst (first - 1)

/-! ## Initialising steppers -/

/-- The steppers that can do the first steps: `m_initializing_stepper`, by default an `extrapolation_stepper`
(`OI/stepper/adams_bashforth.hpp:60-82`), or the first argument of `initialize`. -/
inductive InitStepper (K : Type) where
  | explicit (s : ExplicitStepper K)
  /-- `extrapolation_stepper` with `m_k_max = kmax` -/
  | extrapolation (kmax : ℕ)

section
variable [Add K] [Sub K] [Mul K] [Div K] [IntCast K] [Neg K] [StateOps K V]

/-- `do_step_dxdt_impl( system , in , dxdt , t , out , dt )` (`OI/stepper/base/explicit_stepper_base.hpp:190-196`,
`OI/stepper/base/explicit_error_stepper_base.hpp:208-214`, `OI/stepper/extrapolation_stepper.hpp:209-215`) -/
def InitStepper.impl : InitStepper K → StepImpl K V W
  | .explicit s => s.impl
  | .extrapolation kmax => extrapolationImpl kmax

/-- `do_step_dxdt_impl( system , x , dxdt , t , dt )` (`OI/stepper/base/explicit_stepper_base.hpp:148-153`,
`OI/stepper/base/explicit_error_stepper_base.hpp:161-166`, `OI/stepper/extrapolation_stepper.hpp:202-207`) -/
def InitStepper.io (s : InitStepper K) (sys : Sys K V W) (x dxdt : Loc) (t dt : K) : StepM K V W Unit :=
  match s with
  | .explicit s => s.impl sys x dxdt t x dt
  | .extrapolation kmax => extrapolationIo kmax sys x dxdt t dt

/-! ## `adams_bashforth` -/

/-- `m_steps_initialized` (`OI/stepper/adams_bashforth.hpp:273`) -/
def mStepsInit : Loc := .priv .multi 1

/-- the objects `m_step_storage[i]`, `m_step_storage[i+1]`, ... (`n` of them) -/
def bufRefs (N : ℕ) : ℕ → ℕ → StepM K V W (List Loc)
  | 0, _ => pure []
  | n + 1, i => do
      let s ← bufAt N i
      let ss ← bufRefs N n (i + 1)
      pure (s :: ss)

/-- `adams_bashforth_call_algebra< N >` (`OI/stepper/detail/adams_bashforth_call_algebra.hpp:33-139`) -/
def abCallAlgebra (N : ℕ) (coef : List K) (inp out : Loc) (dt : K) : StepM K V W Unit := do
  let ss ← bufRefs N N 0
  linTo out ((lit 1, inp) :: (coef.map (dt * ·)).zip ss)

/-- `do_step_impl` (`OI/stepper/adams_bashforth.hpp:234-256`), also reached by the in-place version with `out = in`
(`OI/stepper/adams_bashforth.hpp:138-150`).  `resized` is the result of `m_resizer.adjust_size`: the size of the state
has changed since the last call. -/
def abStep (N : ℕ) (coef : List K) (init : InitStepper K) (sys : Sys K V W) (resized : Bool) (inp : Loc) (t : K)
    (out : Loc) (dt : K) : StepM K V W Unit := do
  if resized then setNat mStepsInit 0
  let c ← getNat mStepsInit
  if c + 1 < N then
    if c ≠ 0 then bufRotate N
    let s ← bufAt N 0
    callSys sys inp s t
    init.impl sys inp s t out dt
    let c ← getNat mStepsInit
    setNat mStepsInit (c + 1)
  else
    bufRotate N
    let s ← bufAt N 0
    callSys sys inp s t
    abCallAlgebra N coef inp out dt

/-- the loop of `initialize`, with `n` iterations left, in iteration `i` (`OI/stepper/adams_bashforth.hpp:200-207`) -/
def abInitLoop (N : ℕ) (init : InitStepper K) (sys : Sys K V W) (x : Loc) (dt : K) : ℕ → ℕ → K → StepM K V W K
  | 0, _, t => pure t
  | n + 1, i, t => do
      if i ≠ 0 then bufRotate N
      let s ← bufAt N 0
      callSys sys x s t
      init.io sys x s t dt
      abInitLoop N init sys x dt n (i + 1) (t + dt)

/-- `initialize( explicit_stepper , system , x , t , dt )` (`OI/stepper/adams_bashforth.hpp:193-209`); returns the new
value of `t`. -/
def abInitialize (N : ℕ) (init : InitStepper K) (sys : Sys K V W) (x : Loc) (t dt : K) : StepM K V W K := do
  let t ← abInitLoop N init sys x dt (N - 1) 0 t
  setNat mStepsInit N
  pure t

/-- `reset` (`OI/stepper/adams_bashforth.hpp:217-220`) -/
def abReset : StepM K V W Unit := setNat mStepsInit 0

/-- `is_initialized` (`OI/stepper/adams_bashforth.hpp:222-225`) -/
def abIsInitialized (N : ℕ) : StepM K V W Bool := do
  let c ← getNat mStepsInit
  pure (decide (N - 1 ≤ c))

/-! ## `adams_moulton`, `adams_bashforth_moulton` -/

/-- `m_x` of `adams_bashforth_moulton` (`OI/stepper/adams_bashforth_moulton.hpp:202`) -/
def abmX : Loc := .priv .corr 0
/-- `m_dxdt` of `adams_moulton` (`OI/stepper/adams_moulton.hpp:183`) -/
def amDxdt : Loc := .priv .corr 1

/-- `adams_moulton::do_step( system , in , pred , t , out , dt , buf )` (`OI/stepper/adams_moulton.hpp:136-172`,
`OI/stepper/detail/adams_moulton_call_algebra.hpp:32-136`); the corrector of `N` steps reads `buf[0] .. buf[N-2]`. -/
def amStep (N : ℕ) (coef : List K) (sys : Sys K V W) (inp pred : Loc) (t : K) (out : Loc) (dt : K) :
    StepM K V W Unit := do
  callSys sys pred amDxdt t
  let ss ← bufRefs N (N - 1) 0
  linTo out ((lit 1, inp) :: (coef.map (dt * ·)).zip (amDxdt :: ss))

/-- `do_step_impl2` (`OI/stepper/adams_bashforth_moulton.hpp:178-191`) and `do_step_impl1`
(`OI/stepper/adams_bashforth_moulton.hpp:163-175`), which is the same with `out = in`. -/
def abmStep (N : ℕ) (cb cm : List K) (init : InitStepper K) (sys : Sys K V W) (resized : Bool) (inp : Loc) (t : K)
    (out : Loc) (dt : K) : StepM K V W Unit := do
  if (← abIsInitialized N) then
    abStep N cb init sys resized inp t abmX dt
    amStep N cm sys inp abmX (t + dt) out dt
  else
    abStep N cb init sys resized inp t out dt

end

/-! ## Coefficients -/

section
variable [Neg K] [Div K] [IntCast K]

/-- `-static_cast< Value >( p ) / static_cast< Value >( q )` -/
def nfrac (p q : ℤ) : K := (-lit p) / lit q

/-- `adams_bashforth_coefficients< Value , N >` (`OI/stepper/detail/adams_bashforth_coefficients.hpp:33-153`) -/
def abCoef : ℕ → List K
  | 1 => [lit 1]
  | 2 => [frac 3 2, nfrac 1 2]
  | 3 => [frac 23 12, nfrac 4 3, frac 5 12]
  | 4 => [frac 55 24, nfrac 59 24, frac 37 24, nfrac 3 8]
  | 5 => [frac 1901 720, nfrac 1387 360, frac 109 30, nfrac 637 360, frac 251 720]
  | 6 => [frac 4277 1440, nfrac 2641 480, frac 4991 720, nfrac 3649 720, frac 959 480, nfrac 95 288]
  | 7 => [frac 198721 60480, nfrac 18637 2520, frac 235183 20160, nfrac 10754 945, frac 135713 20160,
      nfrac 5603 2520, frac 19087 60480]
  | 8 => [frac 16083 4480, nfrac 1152169 120960, frac 242653 13440, nfrac 296053 13440, frac 2102243 120960,
      nfrac 115747 13440, frac 32863 13440, nfrac 5257 17280]
  | _ => []

/-- `adams_moulton_coefficients< Value , N >` (`OI/stepper/detail/adams_moulton_coefficients.hpp:34-153`) -/
def amCoef : ℕ → List K
  | 1 => [lit 1]
  | 2 => [frac 1 2, frac 1 2]
  | 3 => [frac 5 12, frac 2 3, nfrac 1 12]
  | 4 => [frac 3 8, frac 19 24, nfrac 5 24, frac 1 24]
  | 5 => [frac 251 720, frac 323 360, nfrac 11 30, frac 53 360, nfrac 19 720]
  | 6 => [frac 95 288, frac 1427 1440, nfrac 133 240, frac 241 720, nfrac 173 1440, frac 3 160]
  | 7 => [frac 19087 60480, frac 2713 2520, nfrac 15487 20160, frac 586 945, nfrac 6737 20160, frac 263 2520,
      nfrac 863 60480]
  | 8 => [frac 5257 17280, frac 139849 120960, nfrac 4511 4480, frac 123133 120960, nfrac 88547 120960,
      frac 1537 4480, nfrac 11351 120960, frac 275 24192]
  | _ => []

/-- `adams_bashforth< N >::order()` (`OI/stepper/adams_bashforth.hpp:115,121`) -/
def abOrder (N : ℕ) : ℕ := N
/-- `adams_moulton< N >::order()` (`OI/stepper/adams_moulton.hpp:83,108`) -/
def amOrder (N : ℕ) : ℕ := N + 1
/-- `adams_bashforth_moulton< N >::order()` (`OI/stepper/adams_bashforth_moulton.hpp:84,97`) -/
def abmOrder (N : ℕ) : ℕ := N

end
end Verif
