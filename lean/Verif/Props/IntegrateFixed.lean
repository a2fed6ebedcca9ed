import Verif.Lemmas.IntegrateFixed
import Verif.Spec.Direction
import Mathlib.Data.Rat.Floor
import Mathlib.Algebra.Order.Field.Rat
import Mathlib.Tactic.IntervalCases
import Mathlib.Tactic.NormNum

/-!
# C01, C02, C03: integrate functions with a fixed-step stepper

The stepper is an arbitrary function `step` of its internal state, the state, the time and the step size;
it may throw.
-/

namespace Verif
variable {Q S T : Type}

/-! ## C01 -/

/-- **C01** (normal return).  For every time arithmetic, stepper, `n`: if the first `n` steps do not
throw, `integrate_n_steps` observes and steps alternately at `t0, t0+dt, ..., t0+(n-1)*dt`, observes
once more at `t0+n*dt`, leaves the `n`-th state in `x` and returns `t0+n*dt`. -/
theorem integrate_n_steps_grid (A : TimeArith T) (step : Q → S → T → T → Except Err (Q × S))
    (q : Q) (x : S) (t0 dt : T) (n : ℕ) (X : ℕ → Q × S) (hX0 : X 0 = (q, x))
    (hX : IsTraj step (gridTime A t0 dt) dt X n) (w : Log S T) :
    integrateNStepsBasic A (loggedBasic step) record q x t0 dt n w =
      .ok ((X n).2, gridTime A t0 dt n)
        (w ++ gridCalls X (gridTime A t0 dt) dt n ++ [.obs (X n).2 (gridTime A t0 dt n)]) := by
  unfold integrateNStepsBasic
  have h := nStepsLoop_ok A step t0 dt X n hX n 0 (by omega) w
  rw [hX0] at h
  simp only [gridCalls, List.range_zero, List.flatMap_nil, List.append_nil] at h
  have h' : nStepsBasicLoop A (loggedBasic step) record t0 dt n 0 ⟨q, x, t0⟩ w = _ := h
  rw [M.bind_ok h', record_bind]
  rfl

/-- **C01** (exception).  If step number `m < n` throws, the exception propagates and exactly the calls
up to and including that step have been made. -/
theorem integrate_n_steps_exception (A : TimeArith T)
    (step : Q → S → T → T → Except Err (Q × S))
    (q : Q) (x : S) (t0 dt : T) (n m : ℕ) (hm : m < n) (X : ℕ → Q × S) (hX0 : X 0 = (q, x))
    (hX : IsTraj step (gridTime A t0 dt) dt X m) (e : Err)
    (he : step (X m).1 (X m).2 (gridTime A t0 dt m) dt = .error e) (w : Log S T) :
    integrateNStepsBasic A (loggedBasic step) record q x t0 dt n w =
      .err e (w ++ gridCalls X (gridTime A t0 dt) dt (m + 1)) := by
  unfold integrateNStepsBasic
  have h := nStepsLoop_err A step t0 dt X n m hm e hX he n 0 (by omega) (by omega) w
  rw [hX0] at h
  simp only [gridCalls, List.range_zero, List.flatMap_nil, List.append_nil] at h
  have h' : nStepsBasicLoop A (loggedBasic step) record t0 dt n 0 ⟨q, x, t0⟩ w = _ := h
  rw [M.bind_err h']
  rfl

/-- Euler's method for `x' = x` on the rationals, with a step counter as internal state. -/
def demoStep : ℕ → ℚ → ℚ → ℚ → Except Err (ℕ × ℚ) := fun q x _ dt => .ok (q + 1, x + dt * x)

/-- A stepper that throws at time 1 or later. -/
def demoThrow : ℕ → ℚ → ℚ → ℚ → Except Err (ℕ × ℚ) := fun q x t dt =>
  if t < 1 then .ok (q + 1, x + dt * x) else .error (.user 7)

/-- Non-vacuity of C01: `x' = x`, `x0 = 1`, `dt = 1/2`. -/
example : ∃ X : ℕ → ℕ × ℚ, X 0 = (0, 1) ∧
    IsTraj demoStep (gridTime (TimeArith.exact ℚ 0) 0 (1/2)) (1/2) X 3 ∧ (X 3).2 = 27/8 :=
  ⟨fun k => (k, (3/2) ^ k), by norm_num, by
    intro k _; simp only [demoStep, Except.ok.injEq, Prod.mk.injEq, true_and]; ring, by norm_num⟩

/-- Non-vacuity of the exception case: the third step throws. -/
example : ∃ X : ℕ → ℕ × ℚ, X 0 = (0, 1) ∧
    IsTraj demoThrow (gridTime (TimeArith.exact ℚ 0) 0 (1/2)) (1/2) X 2 ∧
    demoThrow (X 2).1 (X 2).2 (gridTime (TimeArith.exact ℚ 0) 0 (1/2) 2) (1/2)
      = .error (.user 7) :=
  ⟨fun k => (k, (3/2) ^ k), by norm_num, by
    intro k hk
    have hlt : gridTime (TimeArith.exact ℚ 0) 0 (1/2) k < 1 := by
      rw [exact_grid]
      have : (k : ℚ) < 2 := by exact_mod_cast hk
      linarith
    simp only [demoThrow, if_pos hlt, Except.ok.injEq, Prod.mk.injEq, true_and]; ring, by
    simp only [demoThrow, exact_grid]; norm_num⟩

/-! ## C02 -/

/-- **C02** (every time arithmetic).  If `n` is the first index for which the test
`t_n + dt <= t1` of the library fails, `integrate_const` observes and steps alternately at the grid
points `0..n-1`, observes at grid point `n`, leaves the `n`-th state in `x` and returns `n`. -/
theorem integrate_const_grid (A : TimeArith T) (step : Q → S → T → T → Except Err (Q × S))
    (q : Q) (x : S) (t0 t1 dt : T) (n : ℕ) (X : ℕ → Q × S) (hX0 : X 0 = (q, x))
    (hX : IsTraj step (gridTime A t0 dt) dt X n)
    (hc : ∀ k < n, A.lessEqWithSign (A.add (gridTime A t0 dt k) dt) t1 dt = true)
    (hn : A.lessEqWithSign (A.add (gridTime A t0 dt n) dt) t1 dt = false) (w : Log S T) :
    integrateConstBasic A (loggedBasic step) record q x t0 t1 dt w =
      .ok ((X n).2, n)
        (w ++ gridCalls X (gridTime A t0 dt) dt n ++ [.obs (X n).2 (gridTime A t0 dt n)]) := by
  unfold integrateConstBasic
  have h := constLoop_ok A step t0 t1 dt X n hX hc hn w n 0 (by omega)
  rw [hX0] at h
  simp only [gridCalls, List.range_zero, List.flatMap_nil, List.append_nil] at h
  have h' : whileM (constCond A t1 dt) (constBody A step t0 dt) ⟨q, x, t0, 0⟩ w = _ := h
  rw [M.bind_ok h', record_bind]
  rfl

/-- **C02** (exception): if the step at grid point `m` throws, exactly the calls up to that step have
been made. -/
theorem integrate_const_exception (A : TimeArith T) (step : Q → S → T → T → Except Err (Q × S))
    (q : Q) (x : S) (t0 t1 dt : T) (m : ℕ) (X : ℕ → Q × S) (hX0 : X 0 = (q, x))
    (hX : IsTraj step (gridTime A t0 dt) dt X m)
    (hc : ∀ k ≤ m, A.lessEqWithSign (A.add (gridTime A t0 dt k) dt) t1 dt = true) (e : Err)
    (he : step (X m).1 (X m).2 (gridTime A t0 dt m) dt = .error e) (w : Log S T) :
    integrateConstBasic A (loggedBasic step) record q x t0 t1 dt w =
      .err e (w ++ gridCalls X (gridTime A t0 dt) dt (m + 1)) := by
  unfold integrateConstBasic
  have h := constLoop_err A step t0 t1 dt X m e hX hc he w m 0 (by omega)
  rw [hX0] at h
  simp only [gridCalls, List.range_zero, List.flatMap_nil, List.append_nil] at h
  have h' : whileM (constCond A t1 dt) (constBody A step t0 dt) ⟨q, x, t0, 0⟩ w = _ := h
  rw [M.bind_err h']
  rfl

section Exact
variable {K : Type} [Field K] [LinearOrder K] [IsStrictOrderedRing K]

/-- **C02** (exact arithmetic).  For `dt != 0` and a stepper that does not throw on the grid,
`integrate_const` terminates; with the returned `n`, exactly the grid points `t0 + k*dt`, `k = 0..n`
are observed, grid points `1..n` are not beyond `t1` (up to `eps`) and grid point `n+1` is. -/
theorem integrate_const_exact [Archimedean K] (eps : K)
    (step : Q → S → K → K → Except Err (Q × S)) (q : Q) (x : S) (t0 t1 dt : K) (hdt : dt ≠ 0)
    (X : ℕ → Q × S) (hX0 : X 0 = (q, x))
    (hX : ∀ n, IsTraj step (fun k : ℕ => t0 + k * dt) dt X n) (w : Log S K) :
    ∃ n : ℕ,
      integrateConstBasic (TimeArith.exact K eps) (loggedBasic step) record q x t0 t1 dt w =
        .ok ((X n).2, n) (w ++ gridCalls X (fun k : ℕ => t0 + k * dt) dt n ++
          [.obs (X n).2 (t0 + n * dt)]) ∧
      (∀ k : ℕ, 1 ≤ k → k ≤ n → ¬ Beyond eps dt (t0 + k * dt) t1) ∧
      Beyond eps dt (t0 + (n + 1 : ℕ) * dt) t1 := by
  obtain ⟨n, hlt, hn⟩ := exists_last_grid eps t0 t1 dt hdt
  have hg : gridTime (TimeArith.exact K eps) t0 dt = fun k : ℕ => t0 + k * dt :=
    funext (exact_grid eps t0 dt)
  have hcond := exact_const_cond eps t0 t1 dt
  refine ⟨n, ?_, ?_, hn⟩
  · have h := integrate_const_grid (TimeArith.exact K eps) step q x t0 t1 dt n X hX0
      (hg ▸ hX n) (fun k hk => (hcond k).mpr (hlt k hk))
      (by rw [← Bool.not_eq_true, hcond]; exact not_not.mpr hn) w
    rw [hg] at h
    exact h
  · intro k h1 h2
    obtain ⟨j, rfl⟩ : ∃ j, k = j + 1 := ⟨k - 1, by omega⟩
    exact hlt j (by omega)

/-- Non-vacuity of C02: backward grid `0, -1/2, -1` for `t1 = -1.2`; two steps are made. -/
example : integrateConstBasic (TimeArith.exact ℚ 0) (loggedBasic demoStep) record
    0 1 0 (-6/5) (-1/2) [] =
    .ok (1/4, 2) [.obs 1 0, .step 1 0 (-1/2), .obs (1/2) (-1/2), .step (1/2) (-1/2) (-1/2),
      .obs (1/4) (-1)] := by
  rw [integrate_const_grid (TimeArith.exact ℚ 0) demoStep 0 1 0 (-6/5) (-1/2) 2
    (fun k => (k, (1/2) ^ k)) (by norm_num)
    (by intro k _; simp only [demoStep, Except.ok.injEq, Prod.mk.injEq, true_and]; ring)
    (by intro k hk; interval_cases k <;> time_eval) (by time_eval)]
  norm_num [gridCalls, gridTime, List.range_succ, TimeArith.exact]

/-- Non-vacuity of C02 (exact): the trajectory hypothesis for all `n`. -/
example : ∀ n, IsTraj demoStep (fun k : ℕ => (0:ℚ) + k * (-1/2)) (-1/2)
    (fun k => (k, (1/2) ^ k)) n := by
  intro n k _; simp only [demoStep, Except.ok.injEq, Prod.mk.injEq, true_and]; ring

/-! ## C03 -/

/-- **C03** (every time arithmetic): the last step is made by the stepper as it was passed in (`q`),
from the last grid point, with step size `t1 - t_n`, iff `t1` is beyond the last grid point. -/
theorem integrate_adaptive_fixed_grid {T : Type} (A : TimeArith T)
    (step : Q → S → T → T → Except Err (Q × S))
    (q : Q) (x : S) (t0 t1 dt : T) (n : ℕ) (X : ℕ → Q × S) (hX0 : X 0 = (q, x))
    (hX : IsTraj step (gridTime A t0 dt) dt X n)
    (hc : ∀ k < n, A.lessEqWithSign (A.add (gridTime A t0 dt k) dt) t1 dt = true)
    (hn : A.lessEqWithSign (A.add (gridTime A t0 dt n) dt) t1 dt = false) (w : Log S T) :
    let tn := A.add t0 (A.nmul n dt)
    let calls := w ++ gridCalls X (gridTime A t0 dt) dt n ++ [.obs (X n).2 (gridTime A t0 dt n)]
    (A.lessWithSign tn t1 dt = false →
      integrateAdaptiveBasic A (loggedBasic step) record q x t0 t1 dt w = .ok ((X n).2, n) calls) ∧
    (A.lessWithSign tn t1 dt = true → ∀ q' x',
      step q (X n).2 tn (A.sub t1 tn) = .ok (q', x') →
      integrateAdaptiveBasic A (loggedBasic step) record q x t0 t1 dt w =
        .ok (x', n + 1) (calls ++ [.step (X n).2 tn (A.sub t1 tn), .obs x' t1])) ∧
    (A.lessWithSign tn t1 dt = true → ∀ e,
      step q (X n).2 tn (A.sub t1 tn) = .error e →
      integrateAdaptiveBasic A (loggedBasic step) record q x t0 t1 dt w =
        .err e (calls ++ [.step (X n).2 tn (A.sub t1 tn)])) := by
  intro tn calls
  have h := integrate_const_grid A step q x t0 t1 dt n X hX0 hX hc hn w
  refine ⟨fun hl => ?_, fun hl q' x' hs => ?_, fun hl e hs => ?_⟩
  · unfold integrateAdaptiveBasic
    rw [M.bind_ok h]
    simp only [tn] at hl
    simp [hl, M.pure_apply, calls]
  · unfold integrateAdaptiveBasic
    rw [M.bind_ok h]
    simp only [tn] at hl hs
    simp only [hl, if_true]
    rw [M.bind_ok (loggedBasic_ok hs _), record_bind]
    simp [M.pure_apply, calls, tn]
  · unfold integrateAdaptiveBasic
    rw [M.bind_ok h]
    simp only [tn] at hl hs
    simp only [hl, if_true]
    rw [M.bind_err (loggedBasic_err hs _)]

/-- **C03** (exact arithmetic).  `integrate_adaptive` with a stepper that does not throw terminates.
Either the last grid point is within `eps` of `t1` (or beyond, if `t1` was not ahead of `t0`) and
nothing more happens, or exactly one more step of size `t1 - (t0+n*dt)` is made and `t1` itself is
observed.  The returned number is the number of steps. -/
theorem integrate_adaptive_fixed_exact [Archimedean K] (eps : K)
    (step : Q → S → K → K → Except Err (Q × S)) (q : Q) (x : S) (t0 t1 dt : K) (hdt : dt ≠ 0)
    (hfwd : ¬ Beyond eps dt t0 t1)
    (X : ℕ → Q × S) (hX0 : X 0 = (q, x))
    (hX : ∀ n, IsTraj step (fun k : ℕ => t0 + k * dt) dt X n)
    (hlast : ∀ x t h, ∃ r, step q x t h = .ok r) (w : Log S K) :
    ∃ (n : ℕ) (calls : Log S K),
      calls = w ++ gridCalls X (fun k : ℕ => t0 + k * dt) dt n ++ [.obs (X n).2 (t0 + n * dt)] ∧
      ¬ Beyond eps dt (t0 + n * dt) t1 ∧ Beyond eps dt (t0 + (n + 1 : ℕ) * dt) t1 ∧
      ((|t0 + n * dt - t1| ≤ eps ∧
        integrateAdaptiveBasic (TimeArith.exact K eps) (loggedBasic step) record q x t0 t1 dt w
          = .ok ((X n).2, n) calls) ∨
       (Beyond eps dt t1 (t0 + n * dt) ∧ ∃ q' x',
        step q (X n).2 (t0 + n * dt) (t1 - (t0 + n * dt)) = .ok (q', x') ∧
        integrateAdaptiveBasic (TimeArith.exact K eps) (loggedBasic step) record q x t0 t1 dt w
          = .ok (x', n + 1) (calls ++
            [.step (X n).2 (t0 + n * dt) (t1 - (t0 + n * dt)), .obs x' t1]))) := by
  obtain ⟨n, hlt, hn⟩ := exists_last_grid eps t0 t1 dt hdt
  have hg : gridTime (TimeArith.exact K eps) t0 dt = fun k : ℕ => t0 + k * dt :=
    funext (exact_grid eps t0 dt)
  have hcond := exact_const_cond eps t0 t1 dt
  have h := integrate_adaptive_fixed_grid (TimeArith.exact K eps) step q x t0 t1 dt n X hX0
      (hg ▸ hX n) (fun k hk => (hcond k).mpr (hlt k hk))
      (by rw [← Bool.not_eq_true, hcond]; exact not_not.mpr hn) w
  rw [hg] at h
  obtain ⟨hA, hB, -⟩ := h
  have hnb : ¬ Beyond eps dt (t0 + n * dt) t1 := by
    rcases Nat.eq_zero_or_pos n with rfl | hpos
    · simpa using hfwd
    · have := hlt (n - 1) (by omega)
      rwa [Nat.sub_add_cancel hpos] at this
  refine ⟨n, _, rfl, hnb, hn, ?_⟩
  by_cases hl : Beyond eps dt t1 (t0 + n * dt)
  · right
    obtain ⟨⟨q', x'⟩, hs⟩ := hlast (X n).2 (t0 + n * dt) (t1 - (t0 + n * dt))
    refine ⟨hl, q', x', hs, ?_⟩
    exact hB ((exact_less _ _ _ _).mpr ((beyond_iff _ _ _ _).mp hl)) q' x' hs
  · left
    refine ⟨?_, hA ((exact_less_false _ _ _ _).mpr ((not_beyond_iff _ _ _ _).mp hl))⟩
    have h1 := (not_beyond_iff _ _ _ _).mp hl
    have h2 := (not_beyond_iff _ _ _ _).mp hnb
    rw [← abs_dirSign_mul dt, abs_le]
    constructor <;> linarith

/-- Non-vacuity of C03: `dt = 1/2`, `t1 = 3/4`: one grid step, then a step of size `1/4` ending exactly at
`t1`. -/
example : integrateAdaptiveBasic (TimeArith.exact ℚ 0) (loggedBasic demoStep) record
    0 1 0 (3/4) (1/2) [] =
    .ok (15/8, 2) [.obs 1 0, .step 1 0 (1/2), .obs (3/2) (1/2), .step (3/2) (1/2) (1/4),
      .obs (15/8) (3/4)] := by
  have h := (integrate_adaptive_fixed_grid (TimeArith.exact ℚ 0) demoStep 0 1 0 (3/4) (1/2) 1
    (fun k => (k, (3/2) ^ k)) (by norm_num)
    (by intro k _; simp only [demoStep, Except.ok.injEq, Prod.mk.injEq, true_and]; ring)
    (by intro k hk; interval_cases k; time_eval)
    (by time_eval) []).2.1 (by time_eval) 1 (15/8)
    (by norm_num [demoStep, TimeArith.exact])
  rw [h]
  norm_num [gridCalls, gridTime, List.range_succ, TimeArith.exact]

end Exact

end Verif
