import Verif.Model.Midpoint
import Verif.Model.ControlledRk
import Verif.Model.AdaptiveAdams

/-!
# `bulirsch_stoer`

`OI` abbreviates `/repo/include/boost/numeric/odeint`.

The states live in the heap (so that aliasing of the arguments of `try_step` is represented), the members that control order and step size in a
record.  An access to one of the tables outside its bounds is undefined behaviour.  The local tables `h_opt` and `work` have `m_k_max + 1`
entries.  Time and values have the same type, decimal constants are the exact fractions.
-/

namespace Verif
variable {K V W S : Type}

/-- `m_k_max + 1` with `m_k_max = 8` (`OI/stepper/bulirsch_stoer.hpp:89`, `OI/stepper/bulirsch_stoer_dense_out.hpp:95`): the size of the tables -/
def bsSize : ℕ := 9

/-- What differs between `bulirsch_stoer` and `bulirsch_stoer_dense_out` in the control of order and step size. -/
structure BsRules (K : Type) where
  /-- `m_interval_sequence[i]` -/
  steps : ℕ → ℕ
  /-- `expo` in `calc_h_opt` -/
  expo : ℕ → K
  /-- the index of `m_interval_sequence` in the second case of `should_reject` -/
  rejIdx : ℕ → ℕ
  /-- `new_h` from `h_opt[k]` and two entries of `m_cost` -/
  grow : K → K → K → K

/-- The members that control order and step size (`OI/stepper/bulirsch_stoer.hpp:487-494`, `OI/stepper/bulirsch_stoer_dense_out.hpp:677-686`). -/
structure BsCtl (K : Type) where
  /-- `m_current_k_opt` -/
  kopt : ℕ
  /-- `m_first` -/
  first : Bool
  /-- `m_last_step_rejected` -/
  lastRej : Bool
  /-- `m_dt_last` -/
  dtLast : K

/-- Memory of the stepper and the outside world. -/
structure BsState (K V W : Type) where
  ctl : BsCtl K
  heap : Heap K V W

/-- a computation on the states -/
def onHeap {α : Type} (m : StepM K V W α) : M (BsState K V W) α := fun s =>
  match m s.heap with
  | .ok a h => .ok a ⟨s.ctl, h⟩
  | .err e h => .err e ⟨s.ctl, h⟩
  | .ub => .ub
  | .div => .div

/-- why the loop over the stages was left: `reject`, `new_h` and the new value of `m_current_k_opt` -/
structure BsBreak (K : Type) where
  reject : Bool
  newH : K
  kopt : ℕ

/-- `m_cost[i]` (`OI/stepper/bulirsch_stoer.hpp:111-114`, `OI/stepper/bulirsch_stoer_dense_out.hpp:128-134`) -/
def bsCost (R : BsRules K) : ℕ → ℕ
  | 0 => R.steps 0
  | i + 1 => bsCost R i + R.steps (i + 1)

section Control
variable [Add K] [Sub K] [Mul K] [Div K] [Neg K] [IntCast K]

/-- the rules of `bulirsch_stoer` (`OI/stepper/bulirsch_stoer.hpp:110,249-250,278-279,419,478`) -/
def bsRules : BsRules K where
  steps := interval
  expo k := lit 1 / lit (2 * k + 1)
  rejIdx kopt := kopt
  grow h c1 c0 := h * (c1 / c0)

/-- `m_facmin_table[i]` (`OI/stepper/bulirsch_stoer.hpp:116`, `OI/stepper/bulirsch_stoer_dense_out.hpp:135`) -/
def bsFacmin (O : NumOps K) (i : ℕ) : K := O.pow (frac 2 100) (lit 1 / lit (2 * i + 1))

/-- `fac` in `calc_h_opt` -/
def bsFac (R : BsRules K) (O : NumOps K) (error : K) (k : ℕ) : K :=
  if O.eq error (lit 0) then lit 1 / bsFacmin O k
  else O.max (bsFacmin O k / lit 4) (O.min (lit 1 / bsFacmin O k) (frac 94 100 / O.pow (error / frac 65 100) (R.expo k)))

/-- `calc_h_opt` (`OI/stepper/bulirsch_stoer.hpp:413-430`, `OI/stepper/bulirsch_stoer_dense_out.hpp:435-452`) -/
def bsCalcHopt (R : BsRules K) (O : NumOps K) (h error : K) (k : ℕ) : K := h * bsFac R O error k

/-- `d` in the first case of `should_reject` -/
def bsLimit1 (R : BsRules K) (kopt : ℕ) : ℕ := R.steps kopt * R.steps (kopt + 1) / (R.steps 0 * R.steps 0)

/-- `d` in the second case of `should_reject` -/
def bsLimit2 (R : BsRules K) (kopt : ℕ) : ℕ := R.steps (R.rejIdx kopt) / R.steps 0

/-- `should_reject` (`OI/stepper/bulirsch_stoer.hpp:467-482`, `OI/stepper/bulirsch_stoer_dense_out.hpp:461-476`) -/
def bsShouldReject (R : BsRules K) (O : NumOps K) (kopt : ℕ) (error : K) (k : ℕ) : M S Bool :=
  if k + 1 = kopt then do
    chk (kopt + 1 < bsSize)
    pure (O.lt (lit (bsLimit1 R kopt) * lit (bsLimit1 R kopt)) error)
  else if k = kopt then do
    chk (R.rejIdx kopt < bsSize)
    pure (O.lt (lit (bsLimit2 R kopt) * lit (bsLimit2 R kopt)) error)
  else pure (O.lt (lit 1) error)

/-- `work[a] < KFAC2*work[b]` -/
def bsCheaper (O : NumOps K) (work : ℕ → K) (a b : ℕ) : Bool := O.lt (work a) (frac 9 10 * work b)

/-- convergence before `k_opt` (`OI/stepper/bulirsch_stoer.hpp:239-263`, `OI/stepper/bulirsch_stoer_dense_out.hpp:205-228`) -/
def bsBefore (R : BsRules K) (O : NumOps K) (c : BsCtl K) (k : ℕ) (error : K) (hopt work : ℕ → K) : M S (Option (BsBreak K)) :=
  if k + 1 = c.kopt ∨ c.first = true then
    if O.lt error (lit 1) then do
      chk (1 ≤ k ∧ k < bsSize)
      if bsCheaper O work k (k - 1) ∨ c.kopt ≤ 2 then do
        chk (k + 1 < bsSize)
        pure (some ⟨false, R.grow (hopt k) (lit (bsCost R (k + 1))) (lit (bsCost R k)), min 7 (max 2 (k + 1))⟩)
      else pure (some ⟨false, hopt k, min 7 (max 2 k)⟩)
    else do
      let r ← bsShouldReject R O c.kopt error k
      if r = true ∧ c.first = false then pure (some ⟨true, hopt k, c.kopt⟩) else pure none
  else pure none

/-- convergence at `k_opt` (`OI/stepper/bulirsch_stoer.hpp:264-290`, `OI/stepper/bulirsch_stoer_dense_out.hpp:229-254`) -/
def bsAt (R : BsRules K) (O : NumOps K) (c : BsCtl K) (k : ℕ) (error : K) (hopt work : ℕ → K) : M S (Option (BsBreak K)) :=
  if k = c.kopt then
    if O.lt error (lit 1) then do
      chk (1 ≤ k ∧ k < bsSize)
      if bsCheaper O work (k - 1) k then do
        chk (max 2 (c.kopt - 1) < bsSize)
        pure (some ⟨false, hopt (max 2 (c.kopt - 1)), max 2 (c.kopt - 1)⟩)
      else if bsCheaper O work k (k - 1) = true ∧ c.lastRej = false then do
        chk (min 7 (c.kopt + 1) < bsSize)
        pure (some ⟨false, R.grow (hopt k) (lit (bsCost R (min 7 (c.kopt + 1)))) (lit (bsCost R k)), min 7 (c.kopt + 1)⟩)
      else pure (some ⟨false, hopt c.kopt, c.kopt⟩)
    else do
      let r ← bsShouldReject R O c.kopt error k
      chk (c.kopt < bsSize)
      if r then pure (some ⟨true, hopt c.kopt, c.kopt⟩) else pure none
  else pure none

/-- the order after convergence at `k_opt + 1`, first part -/
def bsLower (O : NumOps K) (c : BsCtl K) (k : ℕ) (work : ℕ → K) : ℕ := if bsCheaper O work (k - 2) (k - 1) then max 2 (c.kopt - 1) else c.kopt

/-- the order after convergence at `k_opt + 1`, second part -/
def bsRaise (O : NumOps K) (c : BsCtl K) (k : ℕ) (work : ℕ → K) (k1 : ℕ) : ℕ :=
  if bsCheaper O work k k1 = true ∧ c.lastRej = false then min 7 k else k1

/-- convergence at `k_opt + 1` (`OI/stepper/bulirsch_stoer.hpp:291-307`, `OI/stepper/bulirsch_stoer_dense_out.hpp:255-271`) -/
def bsAfter (O : NumOps K) (c : BsCtl K) (k : ℕ) (error : K) (hopt work : ℕ → K) : M S (Option (BsBreak K)) :=
  if k = c.kopt + 1 then
    if O.lt error (lit 1) then do
      chk (2 ≤ k ∧ k < bsSize)
      chk (bsLower O c k work < bsSize)
      chk (bsRaise O c k work (bsLower O c k work) < bsSize)
      pure (some ⟨false, hopt (bsRaise O c k work (bsLower O c k work)), bsRaise O c k work (bsLower O c k work)⟩)
    else do
      chk (c.kopt < bsSize)
      pure (some ⟨true, hopt c.kopt, c.kopt⟩)
  else pure none

/-- `a` if it is a `break`, otherwise `b` -/
def orNext (a b : M S (Option (BsBreak K))) : M S (Option (BsBreak K)) := do
  let r ← a
  match r with
  | some r => pure (some r)
  | none => b

/-- the three tests of a stage (`OI/stepper/bulirsch_stoer.hpp:239-307`, `OI/stepper/bulirsch_stoer_dense_out.hpp:205-271`) -/
def bsDecide (R : BsRules K) (O : NumOps K) (c : BsCtl K) (k : ℕ) (error : K) (hopt work : ℕ → K) : M S (Option (BsBreak K)) :=
  orNext (bsBefore R O c k error hopt work) (orNext (bsAt R O c k error hopt work) (bsAfter O c k error hopt work))

/-- the loop over the stages (`OI/stepper/bulirsch_stoer.hpp:219-309`, `OI/stepper/bulirsch_stoer_dense_out.hpp:185-273`) from stage `k`, with `n`
iterations left; `stage k` computes the approximation of stage `k` and returns the error.  `m_current_k_opt` changes only at a `break`. -/
def bsLoop (R : BsRules K) (O : NumOps K) (c : BsCtl K) (dt : K) (stage0 : M S Unit) (stage : ℕ → M S K) :
    ℕ → ℕ → (ℕ → K) → (ℕ → K) → M S (Option (BsBreak K))
  | 0, _, _, _ => pure none
  | n + 1, k, hopt, work =>
    if k = 0 then do
      stage0
      bsLoop R O c dt stage0 stage n 1 hopt work
    else do
      chk (k < bsSize)
      let error ← stage k
      orNext (bsDecide R O c k error (Function.update hopt k (bsCalcHopt R O dt error k))
          (Function.update work k (lit (bsCost R k) / bsCalcHopt R O dt error k)))
        (bsLoop R O c dt stage0 stage n (k + 1) (Function.update hopt k (bsCalcHopt R O dt error k))
          (Function.update work k (lit (bsCost R k) / bsCalcHopt R O dt error k)))

end Control

/-! ## `bulirsch_stoer` -/

/-- `m_xnew`, `m_err` and `m_dxdt` (`OI/stepper/bulirsch_stoer.hpp:502-504`); `m_table[i]` is `exTable i` -/
def bsXnew : Loc := .priv .ctrl 1
@[inherit_doc bsXnew] def bsErr : Loc := .priv .ctrl 2
@[inherit_doc bsXnew] def bsDxdt : Loc := .priv .ctrl 3

/-- the parts that do not change: operations on values, error checker, `m_max_dt` -/
structure BsParams (K V : Type) where
  ops : NumOps K
  checker : ErrorChecker K V
  maxDt : K

/-- `reset()` (`OI/stepper/bulirsch_stoer.hpp:337-347`) -/
def BsCtl.reset (c : BsCtl K) : BsCtl K := { c with kopt := 4, first := true, lastRej := false }

/-- the constructor (`OI/stepper/bulirsch_stoer.hpp:91-124`); `m_dt_last` is not initialised, it has an arbitrary value -/
def BsCtl.construct (dtLast : K) : BsCtl K := ⟨4, true, false, dtLast⟩

section Step
variable [Add K] [Sub K] [Mul K] [Div K] [Neg K] [IntCast K] [StateOps K V]

/-- `m_error_checker.error( m_algebra , in , dxdt , m_err.m_v , dt )` -/
def bsCheck (P : BsParams K V) (inp dxdt : Loc) (dt : K) : StepM K V W K := fun h =>
  .ok (P.checker.error (h.state inp) (h.state dxdt) (h.state bsErr) dt).2
    (h.set bsErr (P.checker.error (h.state inp) (h.state dxdt) (h.state bsErr) dt).1)

/-- stage `k > 0` (`OI/stepper/bulirsch_stoer.hpp:230-235`) -/
def bsStage (P : BsParams K V) (sys : Sys K V W) (inp dxdt : Loc) (t : K) (out : Loc) (dt : K) (k : ℕ) : M (BsState K V W) K := do
  chk (1 ≤ k ∧ k - 1 < 8)
  onHeap (midpointImpl (interval k) sys inp dxdt t (exTable (k - 1)) dt)
  onHeap (extrapolate k out)
  onHeap (linTo bsErr [(lit 1, out), (-lit 1, exTable 0)])
  onHeap (bsCheck P inp dxdt dt)

/-- the two calls of `reset` (`OI/stepper/bulirsch_stoer.hpp:201-209`); `resized` is the result of `m_resizer.adjust_size` -/
def bsPrepare (P : BsParams K V) (resized : Bool) (dt : K) (c : BsCtl K) : BsCtl K :=
  if resized = true ∨ P.ops.eq dt c.dtLast = false then c.reset else c

/-- is the step size changed? (`OI/stepper/bulirsch_stoer.hpp:316`) -/
def bsUpdates (P : BsParams K V) (c : BsCtl K) (b : BsBreak K) (dt : K) : Bool := !c.lastRej || P.ops.time.lessWithSign b.newH dt dt

/-- the new step size (`OI/stepper/bulirsch_stoer.hpp:319-322`) -/
def bsNewDt (P : BsParams K V) (b : BsBreak K) : K :=
  if P.ops.eq P.maxDt (lit 0) then b.newH else P.ops.time.minAbs P.maxDt b.newH

/-- the members after a step (`OI/stepper/bulirsch_stoer.hpp:316-328`) -/
def bsNewCtl (P : BsParams K V) (c : BsCtl K) (b : BsBreak K) (dt : K) : BsCtl K :=
  ⟨b.kopt, false, b.reject, if bsUpdates P c b dt then bsNewDt P b else c.dtLast⟩

/-- the result (`OI/stepper/bulirsch_stoer.hpp:311-333`) -/
def bsResult (P : BsParams K V) (c : BsCtl K) (b : BsBreak K) (t dt : K) : TryOut K :=
  ⟨!b.reject, if b.reject then t else t + dt, if bsUpdates P c b dt then bsNewDt P b else dt⟩

/-- is the step too long? (`OI/stepper/bulirsch_stoer.hpp:188`, `OI/stepper/bulirsch_stoer_dense_out.hpp:161`) -/
def bsTooLong (P : BsParams K V) (dt : K) : Bool := !P.ops.eq P.maxDt (lit 0) && P.ops.time.lessWithSign P.maxDt dt dt

omit [Add K] [Sub K] [Mul K] [Div K] [Neg K] [IntCast K] [StateOps K V] in
/-- assign the members that control order and step size -/
def setCtl (c : BsCtl K) : M (BsState K V W) Unit := fun s => .ok () ⟨c, s.heap⟩

/-- the part of `try_step( sys , in , dxdt , t , out , dt )` after the resizing (`OI/stepper/bulirsch_stoer.hpp:211-334`) -/
def bsTryBody (P : BsParams K V) (sys : Sys K V W) (inp dxdt : Loc) (t : K) (out : Loc) (dt : K) (c : BsCtl K) :
    M (BsState K V W) (TryOut K) := do
  setCtl c
  let r ← bsLoop bsRules P.ops c dt (onHeap (midpointImpl (interval 0) sys inp dxdt t out dt)) (bsStage P sys inp dxdt t out dt) (c.kopt + 2) 0
    (fun _ => lit 0) (fun _ => lit 0)
  setCtl (bsNewCtl P c (r.getD ⟨true, dt, c.kopt⟩) dt)
  pure (bsResult P c (r.getD ⟨true, dt, c.kopt⟩) t dt)

/-- `try_step( sys , in , dxdt , t , out , dt )` (`OI/stepper/bulirsch_stoer.hpp:185-334`) -/
def bsTry4 (P : BsParams K V) (resized : Bool) (sys : Sys K V W) (inp dxdt : Loc) (t : K) (out : Loc) (dt : K) :
    M (BsState K V W) (TryOut K) :=
  if bsTooLong P dt then pure ⟨false, t, P.maxDt⟩
  else do
    let s ← M.get
    bsTryBody P sys inp dxdt t out dt (bsPrepare P resized dt s.ctl)

/-- `try_step( sys , in , t , out , dt )` (`OI/stepper/bulirsch_stoer.hpp:169-177`) -/
def bsTry3 (P : BsParams K V) (resized : Bool) (sys : Sys K V W) (inp : Loc) (t : K) (out : Loc) (dt : K) : M (BsState K V W) (TryOut K) := do
  onHeap (callSys sys inp bsDxdt t)
  bsTry4 P resized sys inp bsDxdt t out dt

/-- `try_step( sys , x , dxdt , t , dt )` (`OI/stepper/bulirsch_stoer.hpp:152-162`) -/
def bsTry2 (P : BsParams K V) (resized : Bool) (sys : Sys K V W) (x dxdt : Loc) (t dt : K) : M (BsState K V W) (TryOut K) := do
  let r ← bsTry4 P resized sys x dxdt t bsXnew dt
  (if r.success = true then onHeap (copyTo bsXnew x) else pure ())
  pure r

/-- `try_step( sys , x , t , dt )` (`OI/stepper/bulirsch_stoer.hpp:132-145,387-394`) -/
def bsTry1 (P : BsParams K V) (resized : Bool) (sys : Sys K V W) (x : Loc) (t dt : K) : M (BsState K V W) (TryOut K) := do
  onHeap (callSys sys x bsDxdt t)
  bsTry2 P resized sys x bsDxdt t dt

end Step
end Verif
