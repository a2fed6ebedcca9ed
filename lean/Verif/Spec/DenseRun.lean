import Verif.Spec.ControlledRun
import Verif.Spec.DenseRk
import Verif.Spec.Dense

/-! # The dense output stepper inside the integrate functions -/

namespace Verif
variable {K V W : Type}

/-- A dense output stepper object (`dense_output_runge_kutta< controlled_runge_kutta< runge_kutta_dopri5 > >`) as the integrate functions see it: see
`stepperObject`.  `x` is the user's object `0`. -/
noncomputable def denseObject [Add K] [Sub K] [Mul K] [Div K] [IntCast K] [StateOps K V] (P : CtrlParams K V) (sys : Sys K V W) :
    DenseStepper (Heap K V W) (W × Log V K) V K where
  init q x t dt := fun w =>
    match fsalDenseInit (.user 0) t dt ((q.set (.user 0) x).withWorld w.1) with
    | .ok () h => .ok h (h.world, w.2)
    | .err e h => .err e (h.world, w.2)
    | .ub => .ub
    | .div => .div
  doStep q := fun w =>
    match fsalDenseDoStep P dopri5ErrImpl sys (q.withWorld w.1) with
    | .ok _ h => .ok h (h.world, w.2)
    | .err e h => .err e (h.world, w.2)
    | .ub => .ub
    | .div => .div
  calcState q t := fun w =>
    match fsalDenseCalcState t (.user 0) (q.withWorld w.1) with
    | .ok () h => .ok (h.state (.user 0)) (h.world, w.2)
    | .err e h => .err e (h.world, w.2)
    | .ub => .ub
    | .div => .div
  curState := currentState
  curTime := currentTime
  curDt := currentTimeStep

/-- `H` bounds the steps of an integration from `t0` to `t1`: there is a limit for the step size which points in the direction of `dt` and is not
larger than `H`, or the interval is not longer. -/
def StepLimit (dt maxDt H t0 t1 : ℝ) : Prop := maxDt = 0 ∧ |t1 - t0| ≤ H ∨ SameDir dt maxDt ∧ |maxDt| ≤ H

/-- What a user expects of `integrate_adaptive` and `integrate_times` with the dense output steppers `st τ maxDt`, when they are called to integrate
from `t0` in the direction of `dt`, with start state `x0` of norm up to `ρ`: for every time interval `[a,b]` there is a constant `C`, so that for
every call within this interval, with any first step size `dt`,
* the call returns or throws `step_adjustment_error`, and the latter only if the absolute tolerance is below `C * 0.9^498`;
* if no step can be longer than `H`, all observed states differ from the solution at their time by at most `C * ( |x0 - φ t0| + H^p )`;
* `integrate_adaptive` observes the start state and the state after each step, the last one at the time `t1`; the steps are within the tolerances;
* `integrate_times` observes exactly the requested times, starting with the start state, and returns the last observed state.

Times are compared without a tolerance. -/
def IntegratesDensely {Q : Type} {d : ℕ} (p : ℕ) (f : (Fin d → ℝ) → ℝ → Fin d → ℝ)
    (yields : (Fin d → ℝ) → ℝ → ℝ → (Fin d → ℝ) × (Fin d → ℝ) → Prop)
    (st : Tolerances → ℝ → DenseStepper Q (W × Log (Fin d → ℝ) ℝ) (Fin d → ℝ) ℝ) (φ : ℝ → Fin d → ℝ) : Prop :=
  ∀ a b ρ : ℝ, ∃ C, ∀ (τ : Tolerances) (maxDt H t0 dt : ℝ) (x0 : Fin d → ℝ) (q : Q) (w : W) (l : Log (Fin d → ℝ) ℝ),
    τ.Valid → ‖x0‖ ≤ ρ → t0 ∈ Set.Icc a b → dt ≠ 0 →
    let A := TimeArith.exact ℝ 0
    let close := CloseTo φ (C * (‖x0 - φ t0‖ + H ^ p))
    (∀ t1 ∈ Set.Icc a b, ¬ Beyond 0 dt t0 t1 → StepLimit dt maxDt H t0 t1 →
      let Run : Log (Fin d → ℝ) ℝ → Prop := fun l' =>
        l'.observations.IsChain (fun u v => SameDir dt (v.2 - u.2) ∧ |v.2 - u.2| ≤ H ∧ WithinTolerance τ f yields u v) ∧
        l'.observations.head? = some (x0, t0) ∧ close l'
      (∃ x n w' l', integrateAdaptiveDense A (st τ maxDt) recordObserver q x0 t0 t1 dt (w, l) = .ok (x, n) (w', l ++ l') ∧
        Run l' ∧ l'.observations.getLast? = some (x, t1) ∧ l'.observations.length = n + 1) ∨
      (∃ w' l', integrateAdaptiveDense A (st τ maxDt) recordObserver q x0 t0 t1 dt (w, l) = .err .stepAdjustment (w', l ++ l') ∧
        Run l' ∧ τ.absolute < C * (9 / 10) ^ 498)) ∧
    (∀ times, (∀ s ∈ times, s ∈ Set.Icc a b) → MonotoneTimes dt (t0 :: times) → t0 ∉ times → StepLimit dt maxDt H t0 (times.getLastD t0) →
      (∃ x n w' l', integrateTimesDense A (st τ maxDt) recordObserver q x0 (t0 :: times) dt (w, l) = .ok (x, n) (w', l ++ l') ∧
        l'.observations.map Prod.snd = t0 :: times ∧ l'.observations.head? = some (x0, t0) ∧ close l' ∧
        l'.observations.getLast?.map Prod.fst = some x) ∨
      (∃ w' l', integrateTimesDense A (st τ maxDt) recordObserver q x0 (t0 :: times) dt (w, l) = .err .stepAdjustment (w', l ++ l') ∧
        l'.observations.map Prod.snd <+: t0 :: times ∧ l'.observations.head? = some (x0, t0) ∧ close l' ∧
        τ.absolute < C * (9 / 10) ^ 498))

end Verif
