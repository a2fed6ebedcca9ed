import Verif.Spec.ControlledRun
import Verif.Spec.BulirschStoer

/-! # Specification vocabulary: `bulirsch_stoer` inside the integrate functions -/

namespace Verif
variable {K V W U : Type}

/-- A `bulirsch_stoer` object as the integrate functions see it: see `controlledObject`.  `resizer` is an arbitrary automaton for the resizer: from its
state it determines whether the next call of `adjust_size` returns `true`, and its next state. -/
def bsObject (resizer : U → Bool × U) (tryStep : Bool → Loc → K → K → M (BsState K V W) (TryOut K)) :
    ControlledStepper (BsState K V W × U) (W × Log V K) V K where
  tryStep q x t dt := fun w =>
    match tryStep (resizer q.2).1 (.user 0) t dt ⟨q.1.ctl, (q.1.heap.set (.user 0) x).withWorld w.1⟩ with
    | .ok r s => .ok ⟨(s, (resizer q.2).2), s.heap.state (.user 0), r.t, r.dt, r.success⟩ (s.heap.world, w.2)
    | .err e s => .err e (s.heap.world, w.2)
    | .ub => .ub
    | .div => .div

/-- A step of `extrapolation_stepper< 2k+2 >`, for some `k` from 1 to 8, leads from the state and time `a` to the state and time `b`, and the weighted error of
its error estimate is below one. -/
def BsWithinTolerance {d : ℕ} (τ : Tolerances) (sys : Sys ℝ (Fin d → ℝ) W) (f : (Fin d → ℝ) → ℝ → Fin d → ℝ) (a b : (Fin d → ℝ) × ℝ) : Prop :=
  ∃ k e, 1 ≤ k ∧ k ≤ 8 ∧ (∀ w, ∃ w', extrapolationErrStep k sys a.1 (f a.1 a.2) a.2 (b.2 - a.2) w = .ok (b.1, e) w') ∧
    ((τ.checker d).error a.1 (f a.1 a.2) e (b.2 - a.2)).2 < 1

end Verif
