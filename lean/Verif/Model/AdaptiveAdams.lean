import Verif.Model.ControlledRk

/-!
# `adaptive_adams_bashforth_moulton`, `controlled_adams_bashforth_moulton` and their adjusters

`OI` abbreviates `/repo/include/boost/numeric/odeint`.

The memory of a stepper is a record.  `rotating_buffer` (`OI/stepper/detail/rotating_buffer.hpp:35-84`) is represented by its logical contents:
`rotate` moves entry `i` to entry `i + 1` and the last entry to the front.  An index outside a rotating buffer would be wrapped around
silently by the code and an index outside a `boost::array` is undefined behaviour; the model treats both as undefined behaviour, so that
its absence means that all accesses are in bounds.  States are values: the steppers read the input state before they write the output
state.  Resizing is not modelled here (see `Verif.Model.Resizer`), and time and values have the same type.
-/

namespace Verif
variable {K V E W S α : Type}

/-! ## Loops and checked accesses -/

/-- An access that is undefined behaviour unless `p` holds. -/
def chk (p : Prop) [Decidable p] : M S Unit := if p then pure () else M.ub

/-- the loop body run for `i = lo , lo + 1 , ...`, `n` times -/
def forN (body : ℕ → M S Unit) : ℕ → ℕ → M S Unit
  | 0, _ => pure ()
  | n + 1, lo => do body lo; forN body n (lo + 1)

/-- `for( size_t i=lo ; i<hi ; ++i ) body( i )` -/
def forUp (lo hi : ℕ) (body : ℕ → M S Unit) : M S Unit := forN body (hi - lo) lo

/-- the loop body run for `i = lo , lo + 1 , ...`, `n` times, with a local variable -/
def foldN (body : ℕ → α → M S α) : ℕ → ℕ → α → M S α
  | 0, _, a => pure a
  | n + 1, lo, a => do let a ← body lo a; foldN body n (lo + 1) a

/-! ## The coefficients -/

/-- The members of `adaptive_adams_coefficients` (`OI/stepper/detail/adaptive_adams_coefficients.hpp:168-197`). -/
structure AdamsCoef (K V : Type) where
  /-- `m_eo` -/
  eo : ℕ
  /-- `m_steps_init` -/
  stepsInit : ℕ
  /-- `m_ns` -/
  ns : ℕ
  /-- two rows of `order_value + 1` numbers -/
  beta : ℕ → ℕ → K
  /-- three rows of `order_value + 2` states -/
  phi : ℕ → ℕ → V
  /-- `order_value + 2` numbers -/
  g : ℕ → K
  /-- `m_time_storage`, `steps + 1` times -/
  time : ℕ → K
  /-- `(order_value + 2)²` numbers -/
  c : ℕ → K

namespace AdamsCoef
/-- `beta[o][i] = v` -/
def setBeta (C : AdamsCoef K V) (o i : ℕ) (v : K) : AdamsCoef K V :=
  { C with beta := fun o' i' => if o' = o ∧ i' = i then v else C.beta o' i' }
/-- `phi[o][i].m_v = v` -/
def setPhi (C : AdamsCoef K V) (o i : ℕ) (v : V) : AdamsCoef K V :=
  { C with phi := fun o' i' => if o' = o ∧ i' = i then v else C.phi o' i' }
/-- `c[i] = v` -/
def setC (C : AdamsCoef K V) (i : ℕ) (v : K) : AdamsCoef K V :=
  { C with c := fun i' => if i' = i then v else C.c i' }
/-- `g[i] = v` -/
def setG (C : AdamsCoef K V) (i : ℕ) (v : K) : AdamsCoef K V :=
  { C with g := fun i' => if i' = i then v else C.g i' }
/-- `m_time_storage[i] = v` -/
def setTime (C : AdamsCoef K V) (i : ℕ) (v : K) : AdamsCoef K V :=
  { C with time := fun i' => if i' = i then v else C.time i' }
/-- `m_ns = n` -/
def setNs (C : AdamsCoef K V) (n : ℕ) : AdamsCoef K V := { C with ns := n }
/-- `m_eo = n` -/
def setEo (C : AdamsCoef K V) (n : ℕ) : AdamsCoef K V := { C with eo := n }
end AdamsCoef

section Coef
variable [Add K] [Sub K] [Mul K] [Div K] [Neg K] [IntCast K]

/-- The constructor (`OI/stepper/detail/adaptive_adams_coefficients.hpp:67-98`); what it does not write keeps the contents `m` of the memory.
The table `gs` is `adamsGs`. -/
def AdamsCoef.construct (N : ℕ) (m : AdamsCoef K V) : AdamsCoef K V where
  eo := 1
  stepsInit := 1
  ns := 0
  beta o i := if (o = 0 ∨ o = 1) ∧ i = 0 then lit 1 else m.beta o i
  phi := m.phi
  g i := if i = 0 then lit 1 / lit 1 else if i = 1 then lit 1 / lit 2 else m.g i
  time := m.time
  c i := if i < N + 2 then lit 1 / lit (i + 1)
    else if i < (N + 2) + (N + 2) then lit 1 / lit ((((i - (N + 2) : ℕ) : ℤ) + 1) * (((i - (N + 2) : ℕ) : ℤ) + 2))
    else m.c i

/-- the table `gs` (`OI/stepper/detail/adaptive_adams_coefficients.hpp:84-97`) -/
def adamsGs (i : ℕ) : K :=
  match i with
  | 0 => lit 1
  | 1 => -(lit 1) / lit 2
  | 2 => -(lit 1) / lit 12
  | 3 => -(lit 1) / lit 24
  | 4 => -(lit 19) / lit 720
  | 5 => -(lit 3) / lit 160
  | 6 => -(lit 863) / lit 60480
  | 7 => -(lit 275) / lit 24192
  | 8 => -(lit 33953) / lit 3628800
  | 9 => lit 35 / lit 4436
  | 10 => lit 40 / lit 5891
  | 11 => lit 37 / lit 6250
  | 12 => lit 25 / lit 4771
  | _ => lit 40 / lit 8547

/-- the number of equal steps (`OI/stepper/detail/adaptive_adams_coefficients.hpp:106-113`) -/
def AdamsCoef.countEqual (N : ℕ) (O : NumOps K) (dt : K) (C : AdamsCoef K V) : AdamsCoef K V :=
  if O.lt (lit 1 / lit 10000000000000000) (O.abs (C.time 0 - C.time 1 - dt)) ∨ C.ns ≤ C.eo then C.setNs 0
  else if C.ns < N + 2 then C.setNs (C.ns + 1) else C

/-- body of the loop over `beta` (`OI/stepper/detail/adaptive_adams_coefficients.hpp:117-118`) -/
def betaStep (N : ℕ) (dt : K) (i : ℕ) : M (AdamsCoef K V) Unit := do
  chk (1 ≤ i ∧ i < N + 1)
  M.modify fun C => C.setBeta 0 i (C.beta 0 (i - 1) * (C.time 0 + dt - C.time (i - 1)) / (C.time 0 - C.time i))

/-- body of the inner loop over `c` (`OI/stepper/detail/adaptive_adams_coefficients.hpp:123-127`) -/
def cStep (N : ℕ) (dt : K) (i j : ℕ) : M (AdamsCoef K V) Unit := do
  chk (1 ≤ i ∧ i - 1 < N + 1 ∧ (N + 2) * i + j < (N + 2) * (N + 2) ∧ (N + 2) * (i - 1) + j + 1 < (N + 2) * (N + 2))
  M.modify fun C => C.setC ((N + 2) * i + j)
    (C.c ((N + 2) * (i - 1) + j) - C.c ((N + 2) * (i - 1) + j + 1) * dt / (C.time 0 + dt - C.time (i - 1)))

/-- `g[i] = c[c_size*i]` (`OI/stepper/detail/adaptive_adams_coefficients.hpp:129`) -/
def gStep (N : ℕ) (i : ℕ) : M (AdamsCoef K V) Unit := do
  chk (i < N + 2)
  M.modify fun C => C.setG i (C.c ((N + 2) * i))

/-- `predict` (`OI/stepper/detail/adaptive_adams_coefficients.hpp:100-131`); a loop condition `i<a && i<b` is `i < min a b` -/
def adamsPredict (N : ℕ) (O : NumOps K) (t dt : K) : M (AdamsCoef K V) Unit := do
  chk (1 < N + 1)
  M.modify fun C => C.setTime 0 t
  M.modify (AdamsCoef.countEqual N O dt)
  let C ← M.get
  forUp (1 + C.ns) (min (C.eo + 1) C.stepsInit) (betaStep N dt)
  forUp (2 + C.ns) (min (C.eo + 2) (C.stepsInit + 1)) fun i => do
    forUp 0 (C.eo + 1 - i + 1) (cStep N dt i)
    gStep N i

variable [StateOps K V]

/-- body of the loop over `phi` (`OI/stepper/detail/adaptive_adams_coefficients.hpp:141-150`); `scale_sum1( 1.0 )` and `scale_sum2( 1.0 , - beta )` -/
def phiStep (N : ℕ) (o i : ℕ) : M (AdamsCoef K V) Unit := do
  chk (1 ≤ i ∧ i < N + 2 ∧ (o = 0 → i - 1 < N + 1) ∧ o < 3)
  M.modify fun C => C.setPhi o i
    (if o = 0 then lin [((lit 1 : K), C.phi o (i - 1)), (-(C.beta o (i - 1)), C.phi (o + 1) (i - 1))]
      else lin [((lit 1 : K), C.phi o (i - 1))])

/-- `do_step( dxdt , o )` (`OI/stepper/detail/adaptive_adams_coefficients.hpp:133-152`) -/
def adamsUpdate (N : ℕ) (dxdt : V) (o : ℕ) : M (AdamsCoef K V) Unit := do
  M.modify fun C => C.setPhi o 0 dxdt
  let C ← M.get
  forUp 1 (min (min (C.eo + 3) (C.stepsInit + 2)) (N + 2)) (phiStep N o)

omit [Add K] [Sub K] [Mul K] [Div K] [Neg K] [IntCast K] [StateOps K V] in
/-- `confirm` (`OI/stepper/detail/adaptive_adams_coefficients.hpp:154-164`) -/
def AdamsCoef.confirm (N : ℕ) (C : AdamsCoef K V) : AdamsCoef K V where
  eo := C.eo
  stepsInit := if C.stepsInit < N + 1 then C.stepsInit + 1 else C.stepsInit
  ns := C.ns
  beta o i := C.beta ((o + 1) % 2) i
  phi o i := C.phi ((o + 2) % 3) i
  g := C.g
  time i := C.time ((i + N) % (N + 1))
  c := C.c

omit [Add K] [Sub K] [Mul K] [Div K] [Neg K] [IntCast K] [StateOps K V] in
/-- `reset` (`OI/stepper/detail/adaptive_adams_coefficients.hpp:166`) -/
def AdamsCoef.reset (C : AdamsCoef K V) : AdamsCoef K V := { C with eo := 1, stepsInit := 1 }

omit [Add K] [Sub K] [Mul K] [Div K] [Neg K] [IntCast K] [StateOps K V] in
/-- `if( m_eo < order_value ) ++m_eo` (`OI/stepper/adaptive_adams_bashforth_moulton.hpp:119-122,146-149`,
`OI/stepper/controlled_adams_bashforth_moulton.hpp:199-202`) -/
def AdamsCoef.raise (N : ℕ) (C : AdamsCoef K V) : AdamsCoef K V := if C.eo < N then C.setEo (C.eo + 1) else C

end Coef

/-! ## The stepper -/

/-- Memory of a stepper: `m_coeff` and `m_dxdt` of `adaptive_adams_bashforth_moulton` (`OI/stepper/adaptive_adams_bashforth_moulton.hpp:222-230`),
further memory `ext` of a controller that contains it, and the outside world. -/
structure AdState (K V E W : Type) where
  coef : AdamsCoef K V
  dxdt : V
  ext : E
  world : W

/-- a call of a member of `m_coeff` -/
def onCoef (m : M (AdamsCoef K V) α) : M (AdState K V E W) α := fun s =>
  match m s.coef with
  | .ok a C => .ok a { s with coef := C }
  | .err e C => .err e { s with coef := C }
  | .ub => .ub
  | .div => .div

/-- `system( x , m_dxdt.m_v , t )` with the member `m_dxdt` of the stepper -/
def adamsCall (sys : Sys K V W) (x : V) (t : K) : M (AdState K V E W) Unit := fun s =>
  match sys x t s.world with
  | .ok d w => .ok () { s with dxdt := d, world := w }
  | .err e w => .err e { s with world := w }
  | .ub => .ub
  | .div => .div

/-- a call of the outside world that returns a value -/
def outside (m : M W α) : M (AdState K V E W) α := fun s =>
  match m s.world with
  | .ok a w => .ok a { s with world := w }
  | .err e w => .err e { s with world := w }
  | .ub => .ub
  | .div => .div

section Stepper
variable [Add K] [Sub K] [Mul K] [Div K] [Neg K] [IntCast K] [StateOps K V]

/-- body of the loop of the predictor (`OI/stepper/adaptive_adams_bashforth_moulton.hpp:184-185`) -/
def predictorStep (N : ℕ) (dt : K) (i : ℕ) (out : V) : M (AdState K V E W) V := do
  chk (i < N + 1)
  let s ← M.get
  pure (lin [((lit 1 : K), out), (dt * s.coef.g i * s.coef.beta 0 i, s.coef.phi 1 i)])

/-- `do_step_impl` (`OI/stepper/adaptive_adams_bashforth_moulton.hpp:166-197`); returns `( out , xerr )` -/
def adamsStepImpl (N : ℕ) (O : NumOps K) (sys : Sys K V W) (x : V) (t dt : K) : M (AdState K V E W) (V × V) := do
  let s ← M.get
  let eO := s.coef.eo
  onCoef (adamsPredict N O t dt)
  let s ← M.get
  (if s.coef.stepsInit = 1 then do
      adamsCall sys x t
      let s ← M.get
      onCoef (adamsUpdate N s.dxdt 1)
    else pure ())
  let out ← foldN (predictorStep N dt) eO 0 x
  adamsCall sys out (t + dt)
  let s ← M.get
  onCoef (adamsUpdate N s.dxdt 0)
  chk (eO < N + 2)
  let s ← M.get
  pure (lin [((lit 1 : K), out), (dt * s.coef.g eO, s.coef.phi 0 eO)], lin [(dt * s.coef.g eO, s.coef.phi 0 eO)])

/-- `do_step( system , in , t , out , dt , xerr )` (`OI/stepper/adaptive_adams_bashforth_moulton.hpp:110-123`); the other overloads
(86-108) call it with a temporary, and copy it to the state afterwards -/
def aabmDoStep (N : ℕ) (O : NumOps K) (sys : Sys K V W) (x : V) (t dt : K) : M (AdState K V E W) (V × V) := do
  let r ← adamsStepImpl N O sys x t dt
  adamsCall sys r.1 (t + dt)
  let s ← M.get
  onCoef (adamsUpdate N s.dxdt 0)
  onCoef (M.modify (AdamsCoef.confirm N))
  onCoef (M.modify (AdamsCoef.raise N))
  pure r

/-- body of the loop of `initialize( stepper , ... )` (`OI/stepper/adaptive_adams_bashforth_moulton.hpp:136-149`), with local variables
`( inOut , t )`.  `start x dxdt t dt` is `stepper.do_step_dxdt_impl( system , inOut , m_dxdt.m_v , t , dt )` of the explicit stepper given. -/
def aabmInitStep (N : ℕ) (O : NumOps K) (start : V → V → K → K → M W V) (sys : Sys K V W) (dt : K) (p : V × K) :
    M (AdState K V E W) (V × K) := do
  let s ← M.get
  let x ← outside (start p.1 s.dxdt p.2 dt)
  adamsCall sys x (p.2 + dt)
  onCoef (adamsPredict N O p.2 dt)
  let s ← M.get
  onCoef (adamsUpdate N s.dxdt 0)
  onCoef (M.modify (AdamsCoef.confirm N))
  onCoef (M.modify (AdamsCoef.raise N))
  pure (x, p.2 + dt)

/-- `initialize( stepper , system , inOut , t , dt )` (`OI/stepper/adaptive_adams_bashforth_moulton.hpp:125-151`); returns `( inOut , t )` -/
def aabmInitializeWith (N : ℕ) (O : NumOps K) (start : V → V → K → K → M W V) (sys : Sys K V W) (x : V) (t dt : K) :
    M (AdState K V E W) (V × K) := do
  onCoef (M.modify AdamsCoef.reset)
  adamsCall sys x t
  foldN (fun _ => aabmInitStep N O start sys (dt / lit N)) N 0 (x, t)

/-- body of the loop of `initialize( system , ... )` (`OI/stepper/adaptive_adams_bashforth_moulton.hpp:161-162`) -/
def aabmInitSelf (N : ℕ) (O : NumOps K) (sys : Sys K V W) (dt : K) (p : V × K) : M (AdState K V E W) (V × K) := do
  let r ← aabmDoStep N O sys p.1 p.2 dt
  pure (r.1, p.2 + dt)

/-- `initialize( system , inOut , t , dt )` (`OI/stepper/adaptive_adams_bashforth_moulton.hpp:153-164`); returns `( inOut , t )` -/
def aabmInitialize (N : ℕ) (O : NumOps K) (sys : Sys K V W) (x : V) (t dt : K) : M (AdState K V E W) (V × K) := do
  onCoef (M.modify AdamsCoef.reset)
  foldN (fun _ => aabmInitSelf N O sys (dt / lit N)) N 0 (x, t)

end Stepper

/-! ## The controller -/

/-- A step adjuster (template parameter) with its memory `A`: `adjust_stepsize( steps , dt , err , x , dxdt )` returns the new step size, the new
contents of `err` and the new memory. -/
structure AdamsAdjuster (K V A : Type) where
  adjust : ℕ → K → V → V → V → A → K × V × A
  /-- `threshold()` -/
  threshold : K

/-- Further memory of `controlled_adams_bashforth_moulton` (`OI/stepper/controlled_adams_bashforth_moulton.hpp:304-315`): its own `m_dxdt`,
the four states `m_xerr` and the step adjuster. -/
structure CtrlMem (V A : Type) where
  dxdt : V
  xerr : ℕ → V
  adj : A

section Order
variable [Add K] [Sub K] [Mul K] [Div K] [IntCast K]

/-- `o_new == order - 1` after lines 74-83 of `OI/stepper/controlled_adams_bashforth_moulton.hpp` -/
def lowerOrder (O : NumOps K) (order : ℕ) (errc errm1 errm2 : K) : Bool :=
  (order == 2 && O.le errm1 (lit 1 / lit 2 * errc)) || (decide (2 < order) && O.lt errm2 errc && O.lt errm1 errc)

/-- `default_order_adjuster::adjust_order` (`OI/stepper/controlled_adams_bashforth_moulton.hpp:56-108`); `norm` is `norm_inf` of the algebra -/
def adjustOrder (O : NumOps K) (maxOrder : ℕ) (norm : V → K) (order init : ℕ) (xerr : ℕ → V) : ℕ :=
  let errc := O.abs (norm (xerr 2))
  let errm2 := if 2 < order then O.abs (norm (xerr 0)) else lit 3 * errc
  let errm1 := if 2 ≤ order then O.abs (norm (xerr 1)) else lit 3 * errc
  if init < order then order + 1
  else if lowerOrder O order errc errm1 errm2 then order - 1
  else if order ≤ maxOrder then
    let errp := O.abs (norm (xerr 3))
    if 1 < order ∧ O.lt errm1 errc ∧ O.eq errp (lit 0) = false then order - 1
    else if order < maxOrder ∧ O.lt errp ((lit 1 / lit 2 - lit 1 / lit 4 * lit order / lit maxOrder) * errc) then order + 1
    else order
  else order
end Order

section Controlled
variable {A : Type} [Add K] [Sub K] [Mul K] [Div K] [Neg K] [IntCast K] [StateOps K V]

/-- `system( x , m_dxdt.m_v , t )` with the member `m_dxdt` of the controller -/
def ctrlCall (sys : Sys K V W) (x : V) (t : K) : M (AdState K V (CtrlMem V A) W) Unit := fun s =>
  match sys x t s.world with
  | .ok d w => .ok () { s with ext := { s.ext with dxdt := d }, world := w }
  | .err e w => .err e { s with world := w }
  | .ub => .ub
  | .div => .div

/-- `m_xerr[i] = v` -/
def setErr (i : ℕ) (v : V) : M (AdState K V (CtrlMem V A) W) Unit := do
  chk (i < 4)
  M.modify fun s => { s with ext := { s.ext with xerr := fun j => if j = i then v else s.ext.xerr j } }

/-- `m_xerr[i] = dt * gs[k] * phi[1][k]` (`OI/stepper/controlled_adams_bashforth_moulton.hpp:249-266`) -/
def estimate (N : ℕ) (dt : K) (i k : ℕ) : M (AdState K V (CtrlMem V A) W) Unit := do
  chk (k < 14 ∧ k < N + 2)
  let s ← M.get
  setErr i (lin [(lit 1 * dt * adamsGs k, s.coef.phi 1 k)])

/-- the call of `adjust_stepsize` (`OI/stepper/controlled_adams_bashforth_moulton.hpp:232`); returns the new step size -/
def callAdjuster (P : AdamsAdjuster K V A) (dt : K) (out : V) : M (AdState K V (CtrlMem V A) W) K := fun s =>
  let r := P.adjust s.coef.eo dt (s.ext.xerr 2) out s.dxdt s.ext.adj
  .ok r.1 { s with ext := ⟨s.ext.dxdt, fun j => if j = 2 then r.2.1 else s.ext.xerr j, r.2.2⟩ }

/-- what follows an accepted step (`OI/stepper/controlled_adams_bashforth_moulton.hpp:236-269`), `dt` is the next step size -/
def acceptStep (N : ℕ) (O : NumOps K) (norm : V → K) (sys : Sys K V W) (out : V) (tNew dt : K) :
    M (AdState K V (CtrlMem V A) W) Unit := do
  ctrlCall sys out tNew
  let s ← M.get
  onCoef (adamsUpdate N s.ext.dxdt 0)
  onCoef (M.modify (AdamsCoef.confirm N))
  let s ← M.get
  let eo := s.coef.eo
  estimate N dt 2 eo
  (if 1 < eo then estimate N dt 1 (eo - 1) else pure ())
  (if 2 < eo then estimate N dt 0 (eo - 2) else pure ())
  (if eo < N ∧ eo < s.coef.stepsInit - 1 then estimate N dt 3 (eo + 1) else pure ())
  let s ← M.get
  onCoef (M.modify fun C => C.setEo (adjustOrder O N norm C.eo (C.stepsInit - 1) s.ext.xerr))

/-- the result of `try_step`: success or fail, `out`, `t` and `dt` -/
structure CabmOut (K V : Type) where
  success : Bool
  out : V
  t : K
  dt : K

/-- `try_step( system , in , t , out , dt )` (`OI/stepper/controlled_adams_bashforth_moulton.hpp:221-277`) -/
def cabmTryStep (N : ℕ) (O : NumOps K) (norm : V → K) (P : AdamsAdjuster K V A) (sys : Sys K V W) (x : V) (t dt : K) :
    M (AdState K V (CtrlMem V A) W) (CabmOut K V) := do
  let r ← adamsStepImpl N O sys x t dt
  setErr 2 r.2
  let dtNew ← callAdjuster P dt r.1
  if O.le P.threshold (dtNew / dt) then do
    acceptStep N O norm sys r.1 (t + dt) dtNew
    pure ⟨true, r.1, t + dt, dtNew⟩
  else pure ⟨false, r.1, t, dtNew⟩

/-- `try_step( system , inOut , t , dt )` (`OI/stepper/controlled_adams_bashforth_moulton.hpp:206-219`): `out` is now the new contents of `inOut` -/
def cabmTryStepInOut (N : ℕ) (O : NumOps K) (norm : V → K) (P : AdamsAdjuster K V A) (sys : Sys K V W) (x : V) (t dt : K) :
    M (AdState K V (CtrlMem V A) W) (CabmOut K V) := do
  let r ← cabmTryStep N O norm P sys x t dt
  pure { r with out := if r.success then r.out else x }

/-- the loop `do ... while( res != success )` (`OI/stepper/controlled_adams_bashforth_moulton.hpp:187-191`) around the `try_step` of a controlled
stepper given by the user -/
noncomputable def untilSuccess (tryOther : V → K → K → M W (CabmOut K V)) (x : V) (t dt : K) : M (AdState K V (CtrlMem V A) W) (CabmOut K V) :=
  whileM (fun r => !r.success) (fun r => outside (tryOther r.out r.t r.dt)) ⟨false, x, t, dt⟩

/-- body of the loop of `initialize_controlled` (`OI/stepper/controlled_adams_bashforth_moulton.hpp:187-202`), with local variables
`( inOut , t , dt )` -/
noncomputable def cabmInitStep (N : ℕ) (O : NumOps K) (tryOther : V → K → K → M W (CabmOut K V)) (sys : Sys K V W) (p : V × K × K) :
    M (AdState K V (CtrlMem V A) W) (V × K × K) := do
  let r ← untilSuccess tryOther p.1 p.2.1 p.2.2
  ctrlCall sys r.out r.t
  onCoef (adamsPredict N O (r.t - r.dt) r.dt)
  let s ← M.get
  onCoef (adamsUpdate N s.ext.dxdt 0)
  onCoef (M.modify (AdamsCoef.confirm N))
  onCoef (M.modify (AdamsCoef.raise N))
  pure (r.out, r.t, r.dt)

/-- `initialize_controlled` (`OI/stepper/controlled_adams_bashforth_moulton.hpp:175-204`) -/
noncomputable def cabmInitializeControlled (N : ℕ) (O : NumOps K) (tryOther : V → K → K → M W (CabmOut K V)) (sys : Sys K V W)
    (x : V) (t dt : K) : M (AdState K V (CtrlMem V A) W) (V × K × K) := do
  onCoef (M.modify AdamsCoef.reset)
  foldN (fun _ => cabmInitStep N O tryOther sys) N 0 (x, t, dt)

end Controlled

/-! ## The step adjuster -/

/-- Memory of `pid_step_adjuster` (`OI/stepper/detail/pid_step_adjuster.hpp:183-187`). -/
structure PidState (K : Type) where
  /-- `m_error_storage`, three states -/
  err : ℕ → List K
  /-- `m_dt_storage`, three times -/
  dts : ℕ → K
  /-- `m_init` -/
  init : ℕ

/-- Parameters of `pid_step_adjuster`: the tolerances, `m_dtmax`, the coefficients and the function `atan`. -/
structure PidParams (K : Type) where
  absTol : K
  relTol : K
  dtmax : K
  coef : ℕ → K
  atan : K → K

/-- the names of the coefficient sets (`OI/stepper/detail/pid_step_adjuster_coefficients.hpp:25-35`) -/
inductive PidType where
  | BASIC | H0211 | H211b | H211PI | H0312 | H312b | H312PID | H0321 | H321
  deriving DecidableEq, Repr

section Pid
variable [Add K] [Sub K] [Mul K] [Div K] [Neg K] [IntCast K]

/-- `pid_step_adjuster_coefficients` (`OI/stepper/detail/pid_step_adjuster_coefficients.hpp:40-173`): `β₁ β₂ β₃ α₁ α₂` -/
def pidCoef (p : PidType) (i : ℕ) : K :=
  let l : List K := match p with
    | .BASIC => [lit 1, lit 0, lit 0, lit 0, lit 0]
    | .H0211 => [lit 1 / lit 2, lit 1 / lit 2, lit 0, lit 1 / lit 2, lit 0]
    | .H211b => [lit 1 / lit 5, lit 2 / lit 5, lit 0, lit 1 / lit 5, lit 0]
    | .H211PI => [lit 1 / lit 6, lit 2 / lit 6, lit 0, lit 0, lit 0]
    | .H0312 => [lit 1 / lit 4, lit 2 / lit 2, lit 1 / lit 4, lit 3 / lit 4, lit 1 / lit 4]
    | .H312b => [lit 1 / lit 6, lit 2 / lit 6, lit 1 / lit 6, lit 3 / lit 6, lit 1 / lit 6]
    | .H312PID => [lit 1 / lit 18, lit 2 / lit 9, lit 1 / lit 18, lit 0, lit 0]
    | .H0321 => [lit 5 / lit 4, lit 1 / lit 2, -(lit 3) / lit 4, -(lit 1) / lit 4, -(lit 3) / lit 4]
    | .H321 => [lit 1 / lit 3, lit 1 / lit 18, -(lit 5) / lit 18, -(lit 5) / lit 16, -(lit 1) / lit 6]
  l.getD i (lit 0)

/-- `adapted_pow` (`OI/stepper/detail/pid_step_adjuster.hpp:85-100`) -/
def adaptedPow (O : NumOps K) (base exp : K) : K :=
  if O.eq exp (lit 0) then lit 1 else if O.lt (lit 0) exp then O.pow base exp else lit 1 / O.pow base (-exp)

/-- `pid_op::operator()( t1 , t2 , t3 , t4 )` (`OI/stepper/detail/pid_step_adjuster.hpp:60-72`) -/
def pidOp4 (O : NumOps K) (b : ℕ → K) (steps : ℕ) (dt1 dt2 dt3 e1 e2 e3 : K) : K :=
  lit 1 / (adaptedPow O (O.abs e1) (-(b 0) / lit (steps + 1)) * adaptedPow O (O.abs e2) (-(b 1) / lit (steps + 1)) *
    adaptedPow O (O.abs e3) (-(b 2) / lit (steps + 1)) * adaptedPow O (O.abs (dt1 / dt2)) (-(b 3) / lit (steps + 1)) *
    adaptedPow O (O.abs (dt2 / dt3)) (-(b 4) / lit (steps + 1)))

/-- `pid_op::operator()( t1 , t2 )` (`OI/stepper/detail/pid_step_adjuster.hpp:74-82`) -/
def pidOp2 (O : NumOps K) (beta1 : K) (steps : ℕ) (e1 : K) : K := lit 1 / adaptedPow O (O.abs e1) (-beta1 / lit (steps + 1))

/-- `for_each4` / `for_each2` over the stored errors (`OI/algebra/detail/for_each.hpp:49-57`); they have the same size -/
def pidLoop (O : NumOps K) (b : ℕ → K) (steps : ℕ) (dt1 dt2 dt3 : K) : List K → List K → List K → List K
  | e1 :: l1, e2 :: l2, e3 :: l3 => pidOp4 O b steps dt1 dt2 dt3 e1 e2 e3 :: pidLoop O b steps dt1 dt2 dt3 l1 l2 l3
  | _, _, _ => []

/-- the errors that `norm_inf` is applied to (`OI/stepper/detail/pid_step_adjuster.hpp:143-153`); `init` is `m_init` -/
def pidErrors (O : NumOps K) (P : PidParams K) (steps init : ℕ) (err : ℕ → List K) (dts : ℕ → K) : List K :=
  if 2 ≤ init then pidLoop O P.coef steps (dts 0) (dts 1) (dts 2) (err 0) (err 1) (err 2)
  else (err 0).map (pidOp2 O (lit 7 / lit 10) steps)

/-- `threshold()` (`OI/stepper/detail/pid_step_adjuster.hpp:115`) -/
def pidThreshold : K := lit 9 / lit 10

/-- the ratio before the step size is limited (`OI/stepper/detail/pid_step_adjuster.hpp:155-158`) -/
def pidRatio (O : NumOps K) (P : PidParams K) (errs : List K) : K :=
  lit 1 + lit 1 * P.atan ((lit 1 / normInf O (lit 0) errs - lit 1) / lit 1)

/-- the limit `m_dtmax` (`OI/stepper/detail/pid_step_adjuster.hpp:160-163`) -/
def pidLimit (O : NumOps K) (P : PidParams K) (dt ratio : K) : K := if O.le P.dtmax (ratio * dt) then P.dtmax / dt else ratio

omit [Add K] [Sub K] [Mul K] [Div K] [Neg K] [IntCast K] in
/-- rotation of both storages and `++m_init`, or `m_init = 0` (`OI/stepper/detail/pid_step_adjuster.hpp:165-175`) -/
def pidAdvance (keep : Bool) (err : ℕ → List K) (dts : ℕ → K) (init : ℕ) : PidState K :=
  if keep then ⟨fun i => err ((i + 2) % 3), fun i => dts ((i + 2) % 3), init + 1⟩ else ⟨err, dts, 0⟩

/-- `adjust_stepsize` (`OI/stepper/detail/pid_step_adjuster.hpp:134-178`) for states that are ranges of numbers -/
def pidAdjust (O : NumOps K) (P : PidParams K) (steps : ℕ) (dt : K) (err x dxdt : List K) (s : PidState K) : K × List K × PidState K :=
  let e := relErrorLoop O P.absTol P.relTol (lit 1) (lit 1 * O.abs dt) err x dxdt
  let errs := fun i => if i = 0 then e else s.err i
  let dts := fun i => if i = 0 then dt else s.dts i
  let l := pidErrors O P steps s.init errs dts
  let ratio := pidLimit O P dt (pidRatio O P l)
  (dt * ratio, l, pidAdvance (O.le pidThreshold ratio) errs dts s.init)

/-- `pid_step_adjuster` as step adjuster of the controller -/
def pidAdjuster (O : NumOps K) (P : PidParams K) : AdamsAdjuster K (List K) (PidState K) where
  adjust := pidAdjust O P
  threshold := pidThreshold

end Pid
end Verif
