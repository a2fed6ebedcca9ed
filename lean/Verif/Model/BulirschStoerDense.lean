import Verif.Model.BulirschStoer
import Verif.Model.Integrate

/-!
# `bulirsch_stoer_dense_out` and `modified_midpoint_dense_out`

`OI` abbreviates `/repo/include/boost/numeric/odeint`.

The memory is a record.  The user has no non-const access to the states of the stepper, `initialize` copies and `calc_state` only reads, so the
states are values here.  `m_x1`, `m_x2` and `m_current_state_x1` are represented by the current and the old state, and likewise `m_dxdt1` and
`m_dxdt2`; `toggle_current_state` exchanges them.  `m_x0`, `m_x1` of the midpoint stepper and `m_err` are written before they are read in every
call, they are local.  `try_step` is public in the code ("maybe make try_step private?"); it is modelled as it is called by `do_step`.  An access
to one of the tables outside its bounds is undefined behaviour, and so is reading `m_k_final` before it is assigned.  `m_dt_last` is never used.
Resizing is not modelled here.  The binomial coefficients are exact.
-/

namespace Verif
variable {K V W : Type}

/-- Memory of a stepper (`OI/stepper/bulirsch_stoer_dense_out.hpp:673-716`) and the outside world. -/
structure BsdState (K V W : Type) where
  /-- `m_current_k_opt`, `m_first`, `m_last_step_rejected` -/
  ctl : BsCtl K
  /-- `m_k_final`; `none`: not yet assigned -/
  kFinal : Option ℕ
  /-- `m_t` -/
  t : K
  /-- `m_dt` -/
  dt : K
  /-- `m_t_last` -/
  tLast : K
  /-- `get_current_state()` -/
  cur : V
  /-- `get_old_state()` -/
  old : V
  /-- `get_current_deriv()` -/
  curD : V
  /-- `get_old_deriv()` -/
  oldD : V
  /-- `m_table`, 8 states -/
  table : ℕ → V
  /-- `m_mp_states`, 9 states -/
  mp : ℕ → V
  /-- `m_derivs`, 9 rows, row `j` with `2 + 4*j` derivatives -/
  derivs : ℕ → ℕ → V
  /-- `m_diffs`, 18 rows, row `kappa` with `9 - kappa/2` derivatives -/
  diffs : ℕ → ℕ → V
  world : W

namespace BsdState
/-- assignments to members -/
def setCtl (s : BsdState K V W) (c : BsCtl K) : BsdState K V W := { s with ctl := c }
@[inherit_doc setCtl] def setKFinal (s : BsdState K V W) (k : ℕ) : BsdState K V W := { s with kFinal := some k }
@[inherit_doc setCtl] def setT (s : BsdState K V W) (t : K) : BsdState K V W := { s with t := t }
@[inherit_doc setCtl] def setDt (s : BsdState K V W) (dt : K) : BsdState K V W := { s with dt := dt }
@[inherit_doc setCtl] def setTLast (s : BsdState K V W) (t : K) : BsdState K V W := { s with tLast := t }
@[inherit_doc setCtl] def setOld (s : BsdState K V W) (v : V) : BsdState K V W := { s with old := v }
@[inherit_doc setCtl] def setOldD (s : BsdState K V W) (v : V) : BsdState K V W := { s with oldD := v }
@[inherit_doc setCtl] def setCurD (s : BsdState K V W) (v : V) : BsdState K V W := { s with curD := v }
@[inherit_doc setCtl] def setWorld (s : BsdState K V W) (w : W) : BsdState K V W := { s with world := w }
@[inherit_doc setCtl] def setTable (s : BsdState K V W) (f : ℕ → V) : BsdState K V W := { s with table := f }
@[inherit_doc setCtl] def setMp (s : BsdState K V W) (f : ℕ → V) : BsdState K V W := { s with mp := f }
@[inherit_doc setCtl] def setDerivs (s : BsdState K V W) (j : ℕ) (f : ℕ → V) : BsdState K V W := { s with derivs := Function.update s.derivs j f }
@[inherit_doc setCtl] def setDiffs (s : BsdState K V W) (kappa : ℕ) (f : ℕ → V) : BsdState K V W := { s with diffs := Function.update s.diffs kappa f }
/-- `toggle_current_state()` (`OI/stepper/bulirsch_stoer_dense_out.hpp:665-668`) -/
def toggle (s : BsdState K V W) : BsdState K V W := { s with cur := s.old, old := s.cur, curD := s.oldD, oldD := s.curD }
end BsdState

/-- the parts that do not change: operations on values, error checker, `m_max_dt`, `m_control_interpolation` -/
structure BsdParams (K V : Type) extends BsParams K V where
  control : Bool

/-- `system( x , dxdt , t )` -/
def bsdCall (sys : Sys K V W) (x : V) (t : K) : M (BsdState K V W) V := fun s =>
  match sys x t s.world with
  | .ok d w => .ok d (s.setWorld w)
  | .err e w => .err e (s.setWorld w)
  | .ub => .ub
  | .div => .div

/-- `m_interval_sequence[i]` (`OI/stepper/bulirsch_stoer_dense_out.hpp:126`) -/
def bsdSteps (i : ℕ) : ℕ := 2 + 4 * i

/-- read `m_derivs[j][i]` -/
def getDeriv (j i : ℕ) : M (BsdState K V W) V := do
  chk (j < 9 ∧ i < bsdSteps j)
  let s ← M.get
  pure (s.derivs j i)

/-- write `m_derivs[j][i]` -/
def setDeriv (j i : ℕ) (v : V) : M (BsdState K V W) Unit := do
  chk (j < 9 ∧ i < bsdSteps j)
  M.modify fun s => s.setDerivs j (Function.update (s.derivs j) i v)

/-- write `m_mp_states[k]` -/
def setCenter (k : ℕ) (v : V) : M (BsdState K V W) Unit := do
  chk (k < 9)
  M.modify fun s => s.setMp (Function.update s.mp k v)

/-- read `m_diffs[kappa][j]` -/
def getDiff (kappa j : ℕ) : M (BsdState K V W) V := do
  chk (kappa < 18 ∧ j < 9 - kappa / 2)
  let s ← M.get
  pure (s.diffs kappa j)

/-- write `m_diffs[kappa][j]` -/
def setDiff (kappa j : ℕ) (v : V) : M (BsdState K V W) Unit := do
  chk (kappa < 18 ∧ j < 9 - kappa / 2)
  M.modify fun s => s.setDiffs kappa (Function.update (s.diffs kappa) j v)

section Midpoint
variable [Add K] [Sub K] [Mul K] [Div K] [Neg K] [IntCast K] [StateOps K V]

/-- the loop of `modified_midpoint_dense_out::do_step` (`OI/stepper/modified_midpoint.hpp:228-241`) with `n` iterations left; `m` is `m_steps`, the
results go to `m_mp_states[k]` and `m_derivs[k]`; returns `m_x0` and `m_x1` -/
def bsdMidLoop (sys : Sys K V W) (h h2 : K) (m k : ℕ) : ℕ → ℕ → K → V → V → M (BsdState K V W) (V × V)
  | 0, _, _, x0, x1 => pure (x0, x1)
  | n + 1, i, th, x0, x1 => do
      let d ← getDeriv k (i - 1)
      (if i = m / 2 - 1 then setCenter k (lin [(lit 1, x0), (h2, d)]) else pure ())
      let d' ← bsdCall sys (lin [(lit 1, x0), (h2, d)]) (th + h)
      setDeriv k i d'
      bsdMidLoop sys h h2 m k n (i + 1) (th + h) x1 (lin [(lit 1, x0), (h2, d)])

/-- `modified_midpoint_dense_out::do_step( system , in , dxdt , t , out , dt , m_mp_states[k] , m_derivs[k] )` with
`m_steps = m_interval_sequence[k]` (`OI/stepper/modified_midpoint.hpp:200-248`); returns `out` -/
def bsdMidpoint (sys : Sys K V W) (x dxdt : V) (t dt : K) (k : ℕ) : M (BsdState K V W) V := do
  let m := bsdSteps k
  let h := dt / lit m
  let h2 := lit 2 * h
  (if m = 2 then setCenter k (lin [(lit 1, x), (h, dxdt)]) else pure ())
  let d ← bsdCall sys (lin [(lit 1, x), (h, dxdt)]) (t + h)
  setDeriv k 0 d
  let r ← bsdMidLoop sys h h2 m k (m - 1) 1 (t + h) x (lin [(lit 1, x), (h, dxdt)])
  let d ← getDeriv k (m - 1)
  pure (lin [(frac 1 2, r.1), (frac 1 2, r.2), (frac 1 2 * h, d)])

end Midpoint

section Step
variable [Add K] [Sub K] [Mul K] [Div K] [Neg K] [IntCast K] [StateOps K V]

/-- the rules of `bulirsch_stoer_dense_out` (`OI/stepper/bulirsch_stoer_dense_out.hpp:126,215,243,441,472`) -/
def bsdRules : BsRules K where
  steps := bsdSteps
  expo k := lit 1 / lit (bsdSteps (k - 1))
  rejIdx kopt := kopt + 1
  grow h c1 c0 := h * c1 / c0

/-- `m_coeff[i][k]` (`OI/stepper/bulirsch_stoer_dense_out.hpp:136-141`) -/
def bsdCoeff (i k : ℕ) : K :=
  let r : K := lit (bsdSteps i) / lit (bsdSteps k)
  lit 1 / (r * r - lit 1)

/-- the loop of `extrapolate` (`OI/stepper/bulirsch_stoer_dense_out.hpp:406-411`) on `m_table`, from `j = n` down to 1 -/
def bsdExtrapolateLoop (k : ℕ) : ℕ → (ℕ → V) → (ℕ → V)
  | 0, T => T
  | j + 1, T => bsdExtrapolateLoop k j
      (Function.update T j (lin [(lit 1 + bsdCoeff (K := K) k (j + 1), T (j + 1)), (-bsdCoeff (K := K) k (j + 1), T j)]))

/-- `extrapolate( k , m_table , m_coeff , out )` (`OI/stepper/bulirsch_stoer_dense_out.hpp:401-415`) -/
def bsdExtrapolate (k : ℕ) : M (BsdState K V W) Unit := do
  chk (1 ≤ k ∧ k < 9)
  M.modify fun s => s.setTable (bsdExtrapolateLoop (K := K) k (k - 1) s.table)
  M.modify fun s => s.setOld (lin [(lit 1 + bsdCoeff (K := K) k 0, s.table 0), (-bsdCoeff (K := K) k 0, s.old)])

/-- stage 0 (`OI/stepper/bulirsch_stoer_dense_out.hpp:187-191`) -/
def bsdStage0 (sys : Sys K V W) : M (BsdState K V W) Unit := do
  let s ← M.get
  let y ← bsdMidpoint sys s.cur s.curD s.t s.dt 0
  M.modify fun s => s.setOld y

/-- stage `k > 0` (`OI/stepper/bulirsch_stoer_dense_out.hpp:194-205`) -/
def bsdStage (P : BsdParams K V) (sys : Sys K V W) (k : ℕ) : M (BsdState K V W) K := do
  let s ← M.get
  let y ← bsdMidpoint sys s.cur s.curD s.t s.dt k
  chk (1 ≤ k ∧ k - 1 < 8)
  M.modify fun s => s.setTable (Function.update s.table (k - 1) y)
  bsdExtrapolate k
  M.modify fun s => s.setKFinal k
  let s ← M.get
  pure (P.checker.error s.cur s.curD (lin [((lit 1 : K), s.old), (-lit 1, s.table 0)]) s.dt).2

/-- `extrapolate_dense_out( k , table , m_coeff , s )` (`OI/stepper/bulirsch_stoer_dense_out.hpp:418-433`), from `j = n` down to 1 (the statement after
the loop has the form of the loop body for `j = 1`) -/
def bsdExtrapolateDense (k s : ℕ) : ℕ → (ℕ → V) → (ℕ → V)
  | 0, T => T
  | j + 1, T => bsdExtrapolateDense k s j
      (Function.update T j (lin [(lit 1 + bsdCoeff (K := K) (k + s) (j + s), T (j + 1)), (-bsdCoeff (K := K) (k + s) (j + s), T j)]))

/-- body of the loop in `calculate_finite_difference` (`OI/stepper/bulirsch_stoer_dense_out.hpp:558-575`) for `i = m + kappa - 2c`, with local variable
`sign` -/
def bsdDiffStep (j kappa : ℕ) (fac : K) (c : ℕ) (sign : K) : M (BsdState K V W) K := do
  let v ← getDiff kappa (j - kappa / 2)
  (if 2 * c ≤ (bsdSteps j / 2 - 1) + kappa then do
      let d ← getDeriv j ((bsdSteps j / 2 - 1) + kappa - 2 * c)
      setDiff kappa (j - kappa / 2) (lin [((lit 1 : K), v), (sign * fac * lit (Nat.choose kappa c), d)])
    else do
      let s ← M.get
      setDiff kappa (j - kappa / 2) (lin [((lit 1 : K), v), (sign * fac, s.curD)]))
  pure (sign * lit (-1))

/-- `calculate_finite_difference( j , kappa , fac , dxdt )` (`OI/stepper/bulirsch_stoer_dense_out.hpp:539-576`) -/
def bsdDiff (j kappa : ℕ) (fac : K) : M (BsdState K V W) Unit :=
  if kappa = 0 then do
    let d ← getDeriv j (bsdSteps j / 2 - 1)
    setDiff 0 j (lin [(fac, d)])
  else do
    let d ← getDeriv j ((bsdSteps j / 2 - 1) + kappa)
    setDiff kappa (j - kappa / 2) (lin [(fac, d)])
    let _ ← foldN (bsdDiffStep j kappa fac) kappa 1 (lit (-1))
    pure ()

/-- `calculate_finite_difference( j , kappa , f , dxdt_start ); f *= d` (`OI/stepper/bulirsch_stoer_dense_out.hpp:500-501`) -/
def bsdDiffNext (d : K) (j kappa : ℕ) (f : K) : M (BsdState K V W) K := do
  bsdDiff j kappa f
  pure (f * d)

/-- body of the first loop of `prepare_dense_output` (`OI/stepper/bulirsch_stoer_dense_out.hpp:493-506`) -/
def bsdPrepareRow (dt : K) (j : ℕ) : M (BsdState K V W) Unit := do
  let _ ← foldN (bsdDiffNext (lit (bsdSteps j) / (lit 2 * dt)) j) (2 * j + 2) 0 (lit 1)
  (if 0 < j then do
      chk (j < 9)
      M.modify fun s => s.setMp (bsdExtrapolateDense (K := K) j 0 j s.mp)
    else pure ())

/-- `extrapolate_dense_out( j , m_diffs[kappa] , m_coeff , kappa/2 )` (`OI/stepper/bulirsch_stoer_dense_out.hpp:514`) -/
def bsdExtrapolateRow (kappa j : ℕ) : M (BsdState K V W) Unit := do
  chk (kappa < 18 ∧ j < 9 - kappa / 2 ∧ 1 < 9 - kappa / 2)
  M.modify fun s => s.setDiffs kappa (bsdExtrapolateDense (K := K) j (kappa / 2) j (s.diffs kappa))

/-- body of the second loop of `prepare_dense_output` (`OI/stepper/bulirsch_stoer_dense_out.hpp:511-522`), with local variable `d` -/
def bsdPrepareDiff (dt : K) (k kappa : ℕ) (d : K) : M (BsdState K V W) K := do
  forUp 1 (k - kappa / 2 + 1) (bsdExtrapolateRow (K := K) kappa)
  let v ← getDiff kappa 0
  setDiff kappa 0 (lin [(d, v)])
  pure (d * (dt / lit (2 * (kappa + 2))))

/-- `prepare_dense_output( k , x_start , dxdt_start , x_end , dxdt_end , dt )` (`OI/stepper/bulirsch_stoer_dense_out.hpp:478-537`) -/
def bsdPrepare (P : BsdParams K V) (k : ℕ) : M (BsdState K V W) K := do
  let s ← M.get
  forUp 0 (k + 1) (bsdPrepareRow s.dt)
  let _ ← foldN (bsdPrepareDiff s.dt k) (2 * k + 2) 0 (s.dt / lit 2)
  if P.control then do
    let v ← getDiff (2 * k + 1) 0
    let s ← M.get
    pure (P.checker.error s.cur s.curD v s.dt).2
  else pure (lit 0)

/-- what follows convergence (`OI/stepper/bulirsch_stoer_dense_out.hpp:275-292`) -/
def bsdConverged (P : BsdParams K V) (sys : Sys K V W) (b : BsBreak K) : M (BsdState K V W) (BsBreak K) := do
  let s ← M.get
  let d ← bsdCall sys s.old (s.t + s.dt)
  M.modify fun s => s.setOldD d
  let s ← M.get
  match s.kFinal with
  | none => M.ub
  | some k => do
      let error ← bsdPrepare P k
      if P.ops.lt (lit 10) error then pure ⟨true, s.dt * P.ops.pow error (lit (-1) / lit (2 * k + 2)), b.kopt⟩
      else do
        M.modify fun s => s.setT (s.t + s.dt)
        pure b

/-- is the step size changed? (`OI/stepper/bulirsch_stoer_dense_out.hpp:294`) -/
def bsdUpdates (P : BsdParams K V) (c : BsCtl K) (newH dt : K) : Bool := !c.lastRej || P.ops.lt newH dt

/-- the end of `try_step` (`OI/stepper/bulirsch_stoer_dense_out.hpp:294-308`) -/
def bsdFinish (P : BsdParams K V) (b : BsBreak K) (s : BsdState K V W) : BsdState K V W :=
  (if bsdUpdates P s.ctl b.newH s.dt then s.setDt (bsNewDt P.toBsParams b) else s).setCtl { s.ctl with lastRej := b.reject }

/-- the part of `try_step` after the test of the step size (`OI/stepper/bulirsch_stoer_dense_out.hpp:168-308`); success or fail -/
def bsdTryBody (P : BsdParams K V) (sys : Sys K V W) : M (BsdState K V W) Bool := do
  M.modify fun s => s.setKFinal 0
  let s ← M.get
  let r ← bsLoop bsdRules P.ops s.ctl s.dt (bsdStage0 sys) (bsdStage P sys) (s.ctl.kopt + 2) 0 (fun _ => lit 0) (fun _ => lit 0)
  let b := r.getD ⟨true, s.dt, s.ctl.kopt⟩
  M.modify fun s => s.setCtl { s.ctl with kopt := b.kopt }
  let b ← (if b.reject then pure b else bsdConverged P sys b)
  M.modify (bsdFinish P b)
  pure (!b.reject)

/-- `try_step( system , current , current_deriv , m_t , old , old_deriv , m_dt )` (`OI/stepper/bulirsch_stoer_dense_out.hpp:158-309`); success or fail -/
def bsdTry (P : BsdParams K V) (sys : Sys K V W) : M (BsdState K V W) Bool := do
  let s ← M.get
  if bsTooLong P.toBsParams s.dt then do
    M.modify fun s => s.setDt P.maxDt
    pure false
  else bsdTryBody P sys

omit [Add K] [Sub K] [Mul K] [Div K] [Neg K] [IntCast K] [StateOps K V] in
/-- `reset()` (`OI/stepper/bulirsch_stoer_dense_out.hpp:380-384`) -/
def bsdReset : M (BsdState K V W) Unit := M.modify fun s => s.setCtl { s.ctl with first := true, lastRej := false }

omit [Add K] [Sub K] [Mul K] [Div K] [Neg K] [IntCast K] [StateOps K V] in
/-- the constructor (`OI/stepper/bulirsch_stoer_dense_out.hpp:97-155`); what it does not write keeps the contents `m` of the memory, `m_k_final` is
not assigned -/
def bsdConstruct (m : BsdState K V W) : BsdState K V W :=
  { m with ctl := { m.ctl with kopt := 4, first := true, lastRej := false }, kFinal := none }

omit [Add K] [Sub K] [Mul K] [Div K] [Neg K] [IntCast K] [StateOps K V] in
/-- `initialize( x0 , t0 , dt0 )` (`OI/stepper/bulirsch_stoer_dense_out.hpp:311-319`) -/
def bsdInitialize (x0 : V) (t0 dt0 : K) : M (BsdState K V W) Unit := do
  M.modify fun s => { s with cur := x0, t := t0, dt := dt0 }
  bsdReset

/-- body of the loop in `do_step` (`OI/stepper/bulirsch_stoer_dense_out.hpp:337-342`), with local variables `res == success` and the counter of
`fail_checker` -/
def bsdBody (P : BsdParams K V) (sys : Sys K V W) (r : Bool × ℕ) : M (BsdState K V W) (Bool × ℕ) := do
  let ok ← bsdTry P sys
  M.modify fun s => s.setCtl { s.ctl with first := false }
  let c ← failedStepChecker defaultMaxSteps r.2
  pure (ok, c)

/-- the beginning of `do_step` (`OI/stepper/bulirsch_stoer_dense_out.hpp:328-336`) -/
def bsdBegin (sys : Sys K V W) : M (BsdState K V W) Unit := do
  let s ← M.get
  (if s.ctl.first then do
      let d ← bsdCall sys s.cur s.t
      M.modify fun s => s.setCurD d
    else pure ())
  M.modify fun s => s.setTLast s.t

/-- `do_step( system )` (`OI/stepper/bulirsch_stoer_dense_out.hpp:325-345`) -/
noncomputable def bsdDoStep (P : BsdParams K V) (sys : Sys K V W) : M (BsdState K V W) (K × K) := do
  bsdBegin sys
  let _ ← whileM (fun r : Bool × ℕ => !r.1) (bsdBody P sys) (false, 0)
  M.modify BsdState.toggle
  let s ← M.get
  pure (s.tLast, s.t)

/-- body of the loop of `do_interpolation` (`OI/stepper/bulirsch_stoer_dense_out.hpp:588-595`), with local variables `( out , theta_pow )` -/
def bsdTerm (theta : K) (i : ℕ) (p : V × K) : M (BsdState K V W) (V × K) := do
  let v ← getDiff i 0
  pure (lin [((lit 1 : K), p.1), (p.2, v)], p.2 * theta)

/-- `calc_state( t , x )` (`OI/stepper/bulirsch_stoer_dense_out.hpp:348-352,577-596`); returns the new contents of `x` -/
def bsdCalcState (t : K) : M (BsdState K V W) V := do
  let s ← M.get
  let theta := lit 2 * ((t - s.tLast) / (s.t - s.tLast)) - lit 1
  match s.kFinal with
  | none => M.ub
  | some k => do
      let r ← foldN (bsdTerm theta) (2 * k + 2) 0 (s.mp 0, theta)
      pure r.1

end Step
end Verif
