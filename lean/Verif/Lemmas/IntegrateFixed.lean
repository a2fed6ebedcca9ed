import Verif.Spec.Integrate
import Verif.Spec.Direction
import Mathlib.Tactic.Linarith
import Mathlib.Tactic.Ring
import Mathlib.Tactic.NormNum
import Mathlib.Algebra.Order.Archimedean.Basic

/-! Helper lemmas for the fixed-step integrate functions. -/

namespace Verif
variable {Q S T : Type}

/-- Evaluate comparisons of concrete times in exact arithmetic. -/
macro "time_eval" : tactic => `(tactic|
  norm_num [TimeArith.lessEqWithSign, TimeArith.lessWithSign, TimeArith.minAbs, TimeArith.maxAbs,
    TimeArith.stdMin, TimeArith.stdMax, TimeArith.exact, gridTime])

theorem gridCalls_succ (X : ℕ → Q × S) (time : ℕ → T) (dt : T) (n : ℕ) :
    gridCalls X time dt (n + 1) =
      gridCalls X time dt n ++ [.obs (X n).2 (time n), .step (X n).2 (time n) dt] := by
  simp [gridCalls, List.range_succ, List.flatMap_append]

theorem gridTime_succ (A : TimeArith T) (start dt : T) (k : ℕ) :
    gridTime A start dt (k + 1) = A.add start (A.nmul (k + 1) dt) := by
  simp [gridTime]

theorem record_bind {α : Type} (x : S) (t : T) (f : Unit → M (Log S T) α) (w : Log S T) :
    (record x t >>= f) w = f () (w ++ [.obs x t]) := rfl

theorem loggedBasic_ok {step : Q → S → T → T → Except Err (Q × S)} {q : Q} {x : S} {t dt : T}
    {r : Q × S} (h : step q x t dt = .ok r) (w : Log S T) :
    (loggedBasic step).doStep q x t dt w = .ok r (w ++ [.step x t dt]) := by
  simp [loggedBasic, h]

theorem loggedBasic_err {step : Q → S → T → T → Except Err (Q × S)} {q : Q} {x : S} {t dt : T}
    {e : Err} (h : step q x t dt = .error e) (w : Log S T) :
    (loggedBasic step).doStep q x t dt w = .err e (w ++ [.step x t dt]) := by
  simp [loggedBasic, h]

/-! ### integrate_n_steps -/

theorem nStepsLoop_ok (A : TimeArith T) (step : Q → S → T → T → Except Err (Q × S))
    (start dt : T) (X : ℕ → Q × S) (n : ℕ) (hX : IsTraj step (gridTime A start dt) dt X n) :
    ∀ k j, j + k = n → ∀ w : Log S T,
      nStepsBasicLoop A (loggedBasic step) record start dt k j
        ⟨(X j).1, (X j).2, gridTime A start dt j⟩ (w ++ gridCalls X (gridTime A start dt) dt j) =
      .ok ⟨(X n).1, (X n).2, gridTime A start dt n⟩
        (w ++ gridCalls X (gridTime A start dt) dt n) := by
  intro k
  induction k with
  | zero => intro j hj w; obtain rfl : j = n := by omega
            rfl
  | succ k ih =>
    intro j hj w
    rw [nStepsBasicLoop, record_bind, M.bind_ok (loggedBasic_ok (hX j (by omega)) _)]
    have := ih (j + 1) (by omega) w
    rw [gridTime_succ, gridCalls_succ] at this
    simpa [List.append_assoc] using this

theorem nStepsLoop_err (A : TimeArith T) (step : Q → S → T → T → Except Err (Q × S))
    (start dt : T) (X : ℕ → Q × S) (n m : ℕ) (hm : m < n) (e : Err)
    (hX : IsTraj step (gridTime A start dt) dt X m)
    (he : step (X m).1 (X m).2 (gridTime A start dt m) dt = .error e) :
    ∀ k j, j + k = n → j ≤ m → ∀ w : Log S T,
      nStepsBasicLoop A (loggedBasic step) record start dt k j
        ⟨(X j).1, (X j).2, gridTime A start dt j⟩ (w ++ gridCalls X (gridTime A start dt) dt j) =
      .err e (w ++ gridCalls X (gridTime A start dt) dt (m + 1)) := by
  intro k
  induction k with
  | zero => intro j hj hjm; omega
  | succ k ih =>
    intro j hj hjm w
    rw [nStepsBasicLoop, record_bind]
    rcases Nat.lt_or_eq_of_le hjm with h | rfl
    · rw [M.bind_ok (loggedBasic_ok (hX j h) _)]
      have := ih (j + 1) (by omega) h w
      rw [gridTime_succ, gridCalls_succ] at this
      simpa [List.append_assoc] using this
    · rw [M.bind_err (loggedBasic_err he _), gridCalls_succ]
      simp [List.append_assoc]

/-! ### integrate_const -/

/-- loop test of `integrate_const` -/
abbrev constCond (A : TimeArith T) (end_ dt : T) : ConstState Q S T → Bool :=
  fun s => A.lessEqWithSign (A.add s.time dt) end_ dt

/-- loop body of `integrate_const` -/
abbrev constBody (A : TimeArith T) (step : Q → S → T → T → Except Err (Q × S)) (start dt : T) :
    ConstState Q S T → M (Log S T) (ConstState Q S T) :=
  fun s => do
    record s.x s.time
    let (q, x) ← (loggedBasic step).doStep s.q s.x s.time dt
    return ⟨q, x, A.add start (A.nmul (s.step + 1) dt), s.step + 1⟩

theorem constBody_ok (A : TimeArith T) {step : Q → S → T → T → Except Err (Q × S)} {start dt : T}
    {s : ConstState Q S T} {r : Q × S} (h : step s.q s.x s.time dt = .ok r) (w : Log S T) :
    constBody A step start dt s w =
      .ok ⟨r.1, r.2, A.add start (A.nmul (s.step + 1) dt), s.step + 1⟩
        (w ++ [.obs s.x s.time, .step s.x s.time dt]) := by
  unfold constBody
  rw [record_bind, M.bind_ok (loggedBasic_ok h _)]
  simp [M.pure_apply]

theorem constBody_err (A : TimeArith T) {step : Q → S → T → T → Except Err (Q × S)} {start dt : T}
    {s : ConstState Q S T} {e : Err} (h : step s.q s.x s.time dt = .error e) (w : Log S T) :
    constBody A step start dt s w = .err e (w ++ [.obs s.x s.time, .step s.x s.time dt]) := by
  unfold constBody
  rw [record_bind, M.bind_err (loggedBasic_err h _)]
  simp

theorem constLoop_ok (A : TimeArith T) (step : Q → S → T → T → Except Err (Q × S))
    (start end_ dt : T) (X : ℕ → Q × S) (n : ℕ) (hX : IsTraj step (gridTime A start dt) dt X n)
    (hc : ∀ k < n, A.lessEqWithSign (A.add (gridTime A start dt k) dt) end_ dt = true)
    (hn : A.lessEqWithSign (A.add (gridTime A start dt n) dt) end_ dt = false) (w : Log S T) :
    ∀ k j, j + k = n →
      whileM (constCond A end_ dt) (constBody A step start dt)
        ⟨(X j).1, (X j).2, gridTime A start dt j, j⟩ (w ++ gridCalls X (gridTime A start dt) dt j) =
      .ok ⟨(X n).1, (X n).2, gridTime A start dt n, n⟩
        (w ++ gridCalls X (gridTime A start dt) dt n) := by
  intro k
  induction k with
  | zero =>
    intro j hj; obtain rfl : j = n := by omega
    exact whileM_stop hn
  | succ k ih =>
    intro j hj
    refine (whileM_step_ok (cond := constCond A end_ dt) (hc j (by omega)) (constBody_ok A (hX j (by omega)) _)).trans ?_
    have := ih (j + 1) (by omega)
    rw [gridTime_succ, gridCalls_succ] at this
    simpa [List.append_assoc] using this

theorem constLoop_err (A : TimeArith T) (step : Q → S → T → T → Except Err (Q × S))
    (start end_ dt : T) (X : ℕ → Q × S) (m : ℕ) (e : Err)
    (hX : IsTraj step (gridTime A start dt) dt X m)
    (hc : ∀ k ≤ m, A.lessEqWithSign (A.add (gridTime A start dt k) dt) end_ dt = true)
    (he : step (X m).1 (X m).2 (gridTime A start dt m) dt = .error e) (w : Log S T) :
    ∀ k j, j + k = m →
      whileM (constCond A end_ dt) (constBody A step start dt)
        ⟨(X j).1, (X j).2, gridTime A start dt j, j⟩ (w ++ gridCalls X (gridTime A start dt) dt j) =
      .err e (w ++ gridCalls X (gridTime A start dt) dt (m + 1)) := by
  intro k
  induction k with
  | zero =>
    intro j hj; obtain rfl : j = m := by omega
    refine (whileM_step_err (cond := constCond A end_ dt) (hc j le_rfl) (constBody_err A he _)).trans ?_
    rw [gridCalls_succ]
    simp [List.append_assoc]
  | succ k ih =>
    intro j hj
    refine (whileM_step_ok (cond := constCond A end_ dt) (hc j (by omega)) (constBody_ok A (hX j (by omega)) _)).trans ?_
    have := ih (j + 1) (by omega)
    rw [gridTime_succ, gridCalls_succ] at this
    simpa [List.append_assoc] using this

/-! ### exact arithmetic -/

section Exact
set_option linter.unusedSectionVars false
variable {K : Type} [Field K] [LinearOrder K] [IsStrictOrderedRing K]

/-- the sign with which an ordinary comparison has to be multiplied -/
def dirSign (dt : K) : K := if 0 < dt then 1 else -1

theorem exact_less (eps a b dt : K) :
    (TimeArith.exact K eps).lessWithSign a b dt = true ↔ eps < dirSign dt * (b - a) := by
  unfold TimeArith.lessWithSign dirSign TimeArith.exact
  by_cases h : (0 : K) < dt <;> simp [h]

theorem exact_less_false (eps a b dt : K) :
    (TimeArith.exact K eps).lessWithSign a b dt = false ↔ dirSign dt * (b - a) ≤ eps := by
  rw [← not_iff_not, Bool.not_eq_false, exact_less, not_le]

theorem exact_lessEq (eps a b dt : K) :
    (TimeArith.exact K eps).lessEqWithSign a b dt = true ↔ dirSign dt * (a - b) ≤ eps := by
  unfold TimeArith.lessEqWithSign dirSign TimeArith.exact
  by_cases h : (0 : K) < dt <;> simp [h]

theorem exact_lessEq_false (eps a b dt : K) :
    (TimeArith.exact K eps).lessEqWithSign a b dt = false ↔ eps < dirSign dt * (a - b) := by
  rw [← not_iff_not, Bool.not_eq_false, exact_lessEq, not_lt]

theorem exact_grid (eps start dt : K) (k : ℕ) :
    gridTime (TimeArith.exact K eps) start dt k = start + k * dt := by
  unfold gridTime TimeArith.exact
  split <;> simp_all

theorem dirSign_mul_self (dt : K) : dirSign dt * dt = |dt| := by
  unfold dirSign
  split
  · rename_i h; rw [one_mul, abs_of_pos h]
  · rename_i h; rw [abs_of_nonpos (not_lt.mp h)]; ring

theorem dirSign_sq (dt : K) : dirSign dt * dirSign dt = 1 := by
  unfold dirSign; split <;> ring

theorem abs_dirSign_mul (dt a : K) : |dirSign dt * a| = |a| := by
  unfold dirSign; split <;> simp

theorem dirSign_cases (dt : K) : dirSign dt = 1 ∨ dirSign dt = -1 := by
  unfold dirSign; split <;> simp

theorem beyond_iff (eps dt a b : K) : Beyond eps dt a b ↔ eps < dirSign dt * (a - b) := by
  unfold Beyond dirSign
  split
  · constructor <;> intro h <;> linarith
  · constructor <;> intro h <;> linarith

theorem not_beyond_iff (eps dt a b : K) : ¬ Beyond eps dt a b ↔ dirSign dt * (a - b) ≤ eps := by
  rw [beyond_iff, not_lt]

/-- there is a first grid point whose successor is beyond the end -/
theorem exists_last_grid [Archimedean K] (eps t0 t1 dt : K) (hdt : dt ≠ 0) :
    ∃ n : ℕ, (∀ k : ℕ, k < n → ¬ Beyond eps dt (t0 + (k + 1 : ℕ) * dt) t1) ∧
      Beyond eps dt (t0 + (n + 1 : ℕ) * dt) t1 := by
  have hpos : 0 < |dt| := abs_pos.mpr hdt
  obtain ⟨m, hm⟩ := Archimedean.arch (eps + dirSign dt * (t1 - t0)) hpos
  have hex : ∃ n : ℕ, Beyond eps dt (t0 + (n + 1 : ℕ) * dt) t1 := by
    refine ⟨m, ?_⟩
    rw [beyond_iff]
    have h1 : dirSign dt * (t0 + ((m + 1 : ℕ) : K) * dt - t1) =
        dirSign dt * (t0 - t1) + ((m : K) + 1) * |dt| := by
      rw [← dirSign_mul_self]; push_cast; ring
    rw [h1]
    rw [nsmul_eq_mul] at hm
    nlinarith
  classical
  refine ⟨Nat.find hex, ?_, Nat.find_spec hex⟩
  intro k hk
  exact Nat.find_min hex hk

theorem exact_const_cond (eps t0 t1 dt : K) (k : ℕ) :
    (TimeArith.exact K eps).lessEqWithSign
      ((TimeArith.exact K eps).add (gridTime (TimeArith.exact K eps) t0 dt k) dt) t1 dt = true ↔
      ¬ Beyond eps dt (t0 + (k + 1 : ℕ) * dt) t1 := by
  have hadd : (TimeArith.exact K eps).add (gridTime (TimeArith.exact K eps) t0 dt k) dt =
      t0 + (k + 1 : ℕ) * dt := by
    rw [exact_grid]; show t0 + k * dt + dt = _; push_cast; ring
  rw [hadd, exact_lessEq, not_beyond_iff]

end Exact

end Verif
