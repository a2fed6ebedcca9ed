import Verif.Spec.Convergence
import Verif.Spec.ControlledRk
import Verif.Spec.RealOps
import Verif.Spec.Dense
import Mathlib.Data.List.OfFn

/-! # Controlled steppers inside the integrate functions -/

namespace Verif
variable {K V W : Type}

/-- A controlled stepper object as `integrate_adaptive` sees it: see `stepperObject`. -/
def controlledObject (tryStep : Loc → K → K → StepM K V W (TryOut K)) : ControlledStepper (Heap K V W) (W × Log V K) V K where
  tryStep q x t dt := fun w =>
    match tryStep (.user 0) t dt ((q.set (.user 0) x).withWorld w.1) with
    | .ok r h => .ok ⟨h, h.state (.user 0), r.t, r.dt, r.success⟩ (h.world, w.2)
    | .err e h => .err e (h.world, w.2)
    | .ub => .ub
    | .div => .div

/-- The arguments of `default_error_checker`. -/
structure Tolerances where
  absolute : ℝ
  relative : ℝ
  aX : ℝ
  aDxdt : ℝ

/-- a positive absolute tolerance, and no negative number -/
structure Tolerances.Valid (τ : Tolerances) : Prop where
  absolute : 0 < τ.absolute
  relative : 0 ≤ τ.relative
  aX : 0 ≤ τ.aX
  aDxdt : 0 ≤ τ.aDxdt

/-- The default error checker, for states with `d` components. -/
noncomputable def Tolerances.checker (τ : Tolerances) (d : ℕ) : ErrorChecker ℝ (Fin d → ℝ) where
  error x dxdt err dt :=
    let r := (defaultErrorChecker (realOps 0) τ.absolute τ.relative τ.aX τ.aDxdt).error (List.ofFn x) (List.ofFn dxdt) (List.ofFn err) dt
    (fun i => r.1.getD i 0, r.2)

/-- The default error checker and the default step adjuster with the limit `maxDt` for the step size (zero means no limit), for a stepper of order
`p` whose error estimate has order `q`. -/
noncomputable def Tolerances.controlUpTo (τ : Tolerances) (d p q : ℕ) (maxDt : ℝ) : CtrlParams ℝ (Fin d → ℝ) where
  gtOne e := decide (1 < e)
  checker := τ.checker d
  adjuster := defaultAdjuster (realOps 0) maxDt
  stepperOrder := p
  errorOrder := q

/-- A step from the state and time `a` to the state and time `b` was made according to `yields` (state, time and step size; new state and error
estimate), and its weighted error is at most one. -/
def WithinTolerance {d : ℕ} (τ : Tolerances) (f : (Fin d → ℝ) → ℝ → Fin d → ℝ) (yields : (Fin d → ℝ) → ℝ → ℝ → (Fin d → ℝ) × (Fin d → ℝ) → Prop)
    (a b : (Fin d → ℝ) × ℝ) : Prop :=
  ∃ e, yields a.1 a.2 (b.2 - a.2) (b.1, e) ∧ ((τ.checker d).error a.1 (f a.1 a.2) e (b.2 - a.2)).2 ≤ 1

/-- What a user expects of calls of the integrate functions with a controlled stepper `st`, in the state `q`, from the state `x0` and the time `t0` in the direction
of `dt`, within the time interval `[a,b]`, when the limit of the step size is `maxDt` (zero means no limit): every call returns or throws
`step_adjustment_error`, and the latter only if the tolerance is too `small`.  Moreover,

* `integrate_adaptive` to `t1`: all observations are connected by steps in the direction of `dt` that are `within` the tolerances and not longer than
  the limit; the first one is the start state; when the call returns, the last observation is the returned state, and its time is `t1` up to `eps`;
  if no step is longer than `H`, all observed states differ from the solution by at most `bound H`;
* `integrate_n_steps`: exactly the times `t0 + k dt`, `k ≤ n`, are observed, starting with the start state; the last observation is returned; the
  observed states differ from the solution by at most `bound H` for every `H` not less than `|dt|` or the limit;
* `integrate_const`: the same, for the `n` such that `t0 + n dt` is the last such time not beyond `t1`;
* `integrate_times`: exactly the requested times are observed, and the same holds for every `H` that is not less than the distance of consecutive
  times, or the limit.

In the last three, times are compared without a tolerance. -/
def ReliableCalls {Q V : Type} [NormedAddCommGroup V] (st : ControlledStepper Q (W × Log V ℝ) V ℝ) (a b maxDt t0 dt : ℝ) (x0 : V) (q : Q) (w : W) (l : Log V ℝ)
    (within : V × ℝ → V × ℝ → Prop) (φ : ℝ → V) (bound : ℝ → ℝ) (small : Prop) : Prop :=
    let A := TimeArith.exact ℝ 0
    let close := fun (H : ℝ) (l' : Log V ℝ) => CloseTo φ (bound H) l'
    let limit := fun H : ℝ => maxDt ≠ 0 ∧ |maxDt| ≤ H
    let grid := fun n : ℕ => (List.range (n + 1)).map fun k : ℕ => t0 + (k : ℝ) * dt
    (∀ eps t1 : ℝ, 0 ≤ eps → eps ≤ 1 → t1 ∈ Set.Icc a b → ¬ Beyond eps dt t0 t1 →
      let Run : Log V ℝ → Prop := fun l' =>
        l'.observations.IsChain (fun u v => SameDir dt (v.2 - u.2) ∧ (maxDt ≠ 0 → |v.2 - u.2| ≤ |maxDt|) ∧ within u v) ∧
        l'.observations.head? = some (x0, t0) ∧
        ∀ H, l'.observations.IsChain (fun u v => |v.2 - u.2| ≤ H) → 0 ≤ H → close H l'
      (∃ r w' l', integrateAdaptiveControlled (TimeArith.exact ℝ eps) st recordObserver q x0 t0 t1 dt (w, l) = .ok r (w', l ++ l') ∧
        Run l' ∧ l'.observations.getLast? = some (r.x, r.t) ∧ l'.observations.length = r.count + 1 ∧ |r.t - t1| ≤ eps) ∨
      (∃ w' l', integrateAdaptiveControlled (TimeArith.exact ℝ eps) st recordObserver q x0 t0 t1 dt (w, l) =
          .err .stepAdjustment (w', l ++ l') ∧ Run l' ∧ small)) ∧
    (∀ n : ℕ, t0 + n * dt ∈ Set.Icc a b →
      (∃ x w' l', integrateNStepsControlled A st recordObserver q x0 t0 dt n (w, l) = .ok (x, t0 + n * dt) (w', l ++ l') ∧
        l'.observations.map Prod.snd = grid n ∧ l'.observations.head? = some (x0, t0) ∧ l'.observations.getLast? = some (x, t0 + n * dt) ∧
        ∀ H, |dt| ≤ H ∨ limit H → close H l') ∨
      (∃ w' l', integrateNStepsControlled A st recordObserver q x0 t0 dt n (w, l) = .err .stepAdjustment (w', l ++ l') ∧
        l'.observations.map Prod.snd <+: grid n ∧ l'.observations.head? = some (x0, t0) ∧ (∀ H, |dt| ≤ H ∨ limit H → close H l') ∧
        small)) ∧
    (∀ t1 ∈ Set.Icc a b, ¬ Beyond 0 dt t0 t1 → ∃ n : ℕ, ¬ Beyond 0 dt (t0 + n * dt) t1 ∧ Beyond 0 dt (t0 + (n + 1 : ℕ) * dt) t1 ∧
      ((∃ x m w' l', integrateConstControlled A st recordObserver q x0 t0 t1 dt (w, l) = .ok (x, m) (w', l ++ l') ∧
        l'.observations.map Prod.snd = grid n ∧ l'.observations.head? = some (x0, t0) ∧ l'.observations.getLast? = some (x, t0 + n * dt) ∧
        ∀ H, |dt| ≤ H ∨ limit H → close H l') ∨
      (∃ w' l', integrateConstControlled A st recordObserver q x0 t0 t1 dt (w, l) = .err .stepAdjustment (w', l ++ l') ∧
        l'.observations.map Prod.snd <+: grid n ∧ l'.observations.head? = some (x0, t0) ∧ (∀ H, |dt| ≤ H ∨ limit H → close H l') ∧
        small))) ∧
    (∀ times : List ℝ, (∀ s ∈ times, s ∈ Set.Icc a b) → MonotoneTimes dt (t0 :: times) →
      let bounds := fun H : ℝ => 0 ≤ H ∧ (t0 :: times).IsChain (fun s t => |t - s| ≤ H) ∨ limit H
      (∃ x n w' l', integrateTimesControlled A st recordObserver q x0 (t0 :: times) dt (w, l) = .ok (x, n) (w', l ++ l') ∧
        l'.observations.map Prod.snd = t0 :: times ∧ l'.observations.head? = some (x0, t0) ∧
        l'.observations.getLast?.map Prod.fst = some x ∧ ∀ H, bounds H → close H l') ∨
      (∃ w' l', integrateTimesControlled A st recordObserver q x0 (t0 :: times) dt (w, l) = .err .stepAdjustment (w', l ++ l') ∧
        l'.observations.map Prod.snd <+: t0 :: times ∧ l'.observations.head? = some (x0, t0) ∧ (∀ H, bounds H → close H l') ∧
        small))

/-- What a user expects of the integrate functions with the controlled steppers `st τ maxDt` (one for each choice of tolerances and limit of the
step size; the limit zero means no limit), when they are called in a state of the stepper satisfying `fresh` to integrate from `t0` in the direction
of `dt`, with start state `x0` of norm up to `ρ`: for every time interval `[a,b]` there is a constant `C`, so that all calls within this interval,
with any first step size `dt`, are reliable in the sense of `ReliableCalls`: they throw only if the absolute tolerance is below `C * 0.9^498`, and
the states differ from the solution by at most `C * ( |x0 - φ t0| + H^p )`. -/
def IntegratesReliably {Q : Type} {d : ℕ} (p : ℕ) (f : (Fin d → ℝ) → ℝ → Fin d → ℝ)
    (yields : (Fin d → ℝ) → ℝ → ℝ → (Fin d → ℝ) × (Fin d → ℝ) → Prop)
    (st : Tolerances → ℝ → ControlledStepper Q (W × Log (Fin d → ℝ) ℝ) (Fin d → ℝ) ℝ) (fresh : Q → Prop) (φ : ℝ → Fin d → ℝ) : Prop :=
  ∀ a b ρ : ℝ, ∃ C, ∀ (τ : Tolerances) (maxDt t0 dt : ℝ) (x0 : Fin d → ℝ) (q : Q) (w : W) (l : Log (Fin d → ℝ) ℝ),
    τ.Valid → fresh q → ‖x0‖ ≤ ρ → t0 ∈ Set.Icc a b → dt ≠ 0 → maxDt = 0 ∨ SameDir dt maxDt →
    ReliableCalls (st τ maxDt) a b maxDt t0 dt x0 q w l (WithinTolerance τ f yields) φ (fun H => C * (‖x0 - φ t0‖ + H ^ p)) (τ.absolute < C * (9 / 10) ^ 498)

end Verif
