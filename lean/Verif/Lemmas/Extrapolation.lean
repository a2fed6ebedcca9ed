import Verif.Spec.Extrapolation
import Verif.Spec.Fsal
import Verif.Lemmas.Neville
import Mathlib.Algebra.Polynomial.AlgebraMap
import Mathlib.Algebra.Polynomial.Eval.Degree
import Mathlib.Tactic.LinearCombination
import Mathlib.Data.Nat.Factorial.Basic

namespace Verif
open Polynomial
variable {K V W : Type} [Field K] [AddCommGroup V] [Module K V]

/-! ## The recipes and Gragg's scheme -/

theorem lit_one : (lit 1 : K) = 1 := by simp [lit]
theorem lit_two : (lit 2 : K) = 2 := by simp [lit]

theorem leapFrog_returns {sys : Sys K V W} {f : V → K → V} (hs : Returns sys f) (h : K) :
    ∀ n th x0 x1 d w r w', d = f x1 th → leapFrog sys h n th x0 x1 d w = .ok r w' →
      (r.1, r.2.1) = gragg f h n th x0 x1 ∧ r.2.2 = f r.2.1 (th + n * h) := by
  intro n
  induction n with
  | zero =>
    intro th x0 x1 d w r w' hd hr
    injection hr with h1 h2
    subst h1
    simp [gragg, hd]
  | succ n ih =>
    intro th x0 x1 d w r w' hd hr
    simp only [leapFrog] at hr
    rw [M.bind_apply] at hr
    cases hc : sys (lin [((lit 1 : K), x0), (lit 2 * h, d)]) (th + h) w with
    | ok d' w1 =>
      rw [hc] at hr
      have e := hs _ _ _ _ _ hc
      obtain ⟨a, b⟩ := ih _ _ _ _ _ _ _ e hr
      rw [lin_pair, lit_one, one_smul, lit_two, hd] at a
      refine ⟨a, ?_⟩
      rw [b]
      congr 1
      push_cast; ring
    | err e w1 => rw [hc] at hr; cases hr
    | ub => rw [hc] at hr; cases hr
    | div => rw [hc] at hr; cases hr

theorem leapFrog_count (f : V → K → V) (h : K) :
    ∀ n th x0 x1 d w, ∃ r, leapFrog (countSys f) h n th x0 x1 d w = .ok r (w + n) := by
  intro n
  induction n with
  | zero => intro th x0 x1 d w; exact ⟨_, rfl⟩
  | succ n ih =>
    intro th x0 x1 d w
    simp only [leapFrog]
    rw [M.bind_apply]
    simp only [countSys]
    obtain ⟨r, hr⟩ := ih (th + h) x1 (lin [((lit 1 : K), x0), (lit 2 * h, d)])
      (f (lin [((lit 1 : K), x0), (lit 2 * h, d)]) (th + h)) (w + 1)
    refine ⟨r, ?_⟩
    rw [show w + (n + 1) = w + 1 + n by ring]
    exact hr

theorem midpointStep_returns {sys : Sys K V W} {f : V → K → V} (hs : Returns sys f) (m : ℕ) (hm : 1 ≤ m)
    (x : V) (t dt : K) (w w' : W) (v : V) (hr : midpointStep m sys x (f x t) t dt w = .ok v w') :
    v = graggValue f m x t dt := by
  simp only [midpointStep] at hr
  rw [M.bind_apply] at hr
  cases hc : sys (lin [((lit 1 : K), x), (dt / lit m, f x t)]) (t + dt / lit m) w with
  | ok d w1 =>
    rw [hc] at hr
    simp only at hr
    rw [M.bind_apply] at hr
    have e := hs _ _ _ _ _ hc
    cases hl : leapFrog sys (dt / lit m) (m - 1) (t + dt / lit m) x
      (lin [((lit 1 : K), x), (dt / lit m, f x t)]) d w1 with
    | ok r w2 =>
      rw [hl] at hr
      injection hr with h1 h2
      obtain ⟨a, b⟩ := leapFrog_returns hs _ _ _ _ _ _ _ _ _ e hl
      subst h1
      rw [lin_pair, lit_one, one_smul] at a
      have hlit : (lit (m : ℤ) : K) = m := by simp [lit]
      rw [hlit] at a b ⊢
      simp only [graggValue]
      rw [← a]
      simp only
      have ht : t + dt / m + ((m - 1 : ℕ) : K) * (dt / m) = t + m * (dt / m) := by
        rw [Nat.cast_sub hm]; push_cast; ring
      rw [ht] at b
      rw [← b]
      show List.sum _ = _
      simp [frac, lit, smul_smul]
      module
    | err e w1 => rw [hl] at hr; cases hr
    | ub => rw [hl] at hr; cases hr
    | div => rw [hl] at hr; cases hr
  | err e w1 => rw [hc] at hr; cases hr
  | ub => rw [hc] at hr; cases hr
  | div => rw [hc] at hr; cases hr

theorem midpointStep_count (f : V → K → V) (m : ℕ) (hm : 1 ≤ m) (x k1 : V) (t dt : K) (w : ℕ) :
    ∃ v, midpointStep m (countSys f) x k1 t dt w = .ok v (w + m) := by
  simp only [midpointStep]
  rw [M.bind_apply]
  simp only [countSys]
  rw [M.bind_apply]
  obtain ⟨r, hr⟩ := leapFrog_count f (dt / lit m) (m - 1) (t + dt / lit m) x
    (lin [((lit 1 : K), x), (dt / lit m, k1)])
    (f (lin [((lit 1 : K), x), (dt / lit m, k1)]) (t + dt / lit m)) (w + 1)
  rw [hr, show w + m = w + 1 + (m - 1) by omega]
  exact ⟨_, rfl⟩

theorem midpointResults_returns {sys : Sys K V W} {f : V → K → V} (hs : Returns sys f) (x : V) (t dt : K) :
    ∀ n k ys w ys' w', midpointResults sys x (f x t) t dt n k ys w = .ok ys' w' →
      (∀ i < k, ys i = graggValue f (interval i) x t dt) →
      ∀ i < k + n, ys' i = graggValue f (interval i) x t dt := by
  intro n
  induction n with
  | zero =>
    intro k ys w ys' w' hr hy i hi
    injection hr with h1 h2
    subst h1
    exact hy i hi
  | succ n ih =>
    intro k ys w ys' w' hr hy i hi
    simp only [midpointResults] at hr
    rw [M.bind_apply] at hr
    cases hc : midpointStep (interval k) sys x (f x t) t dt w with
    | ok y w1 =>
      rw [hc] at hr
      have e := midpointStep_returns hs (interval k) (by unfold interval; omega) x t dt _ _ _ hc
      refine ih (k + 1) _ _ _ _ hr ?_ i (by omega)
      intro j hj
      by_cases hjk : j = k
      · subst hjk; simp [e]
      · rw [Function.update_of_ne hjk]
        exact hy j (by omega)
    | err e w1 => rw [hc] at hr; cases hr
    | ub => rw [hc] at hr; cases hr
    | div => rw [hc] at hr; cases hr

theorem extrapolationStep_returns {sys : Sys K V W} {f : V → K → V} (hs : Returns sys f) (kmax : ℕ) (x : V) (t dt : K)
    (w w' : W) (v : V) (hr : extrapolationStep kmax sys x (f x t) t dt w = .ok v w') :
    v = neville (exCoeff (K := K)) (fun i => graggValue f (interval i) x t dt) kmax kmax := by
  simp only [extrapolationStep, extrapolationResults] at hr
  rw [M.bind_apply, M.bind_apply] at hr
  cases hc : midpointStep (interval 0) sys x (f x t) t dt w with
  | ok y w1 =>
    rw [hc] at hr
    simp only at hr
    have e := midpointStep_returns hs (interval 0) (by unfold interval; omega) x t dt _ _ _ hc
    cases hm : midpointResults sys x (f x t) t dt kmax 1 (fun _ => y) w1 with
    | ok ys w2 =>
      rw [hm] at hr
      injection hr with h1 h2
      subst h1
      have := midpointResults_returns hs x t dt _ _ _ _ _ _ hm (by
        intro i hi
        rw [show i = 0 by omega, e])
      have key : ∀ d k, k ≤ kmax → d ≤ k → neville (exCoeff (K := K)) ys d k =
          neville (exCoeff (K := K)) (fun i => graggValue f (interval i) x t dt) d k := by
        intro d
        induction d with
        | zero => intro k hk _; exact this k (by omega)
        | succ d ih =>
          intro k hk hd
          simp only [neville]
          rw [ih k hk (by omega), ih (k - 1) (by omega) (by omega)]
      exact key kmax kmax le_rfl le_rfl
    | err e w1 => rw [hm] at hr; cases hr
    | ub => rw [hm] at hr; cases hr
    | div => rw [hm] at hr; cases hr
  | err e w1 => rw [hc] at hr; cases hr
  | ub => rw [hc] at hr; cases hr
  | div => rw [hc] at hr; cases hr

/-! ## Right-hand sides depending on the time only -/

theorem gragg_time (g : K → V) (h : K) : ∀ n th x0 x1,
    (gragg (fun _ s => g s) h n th x0 x1).1 + (gragg (fun _ s => g s) h n th x0 x1).2 =
      x0 + x1 + ∑ i ∈ Finset.range n, (2 * h) • g (th + i * h) := by
  intro n
  induction n with
  | zero => intro th x0 x1; simp [gragg]
  | succ n ih =>
    intro th x0 x1
    simp only [gragg]
    rw [ih, Finset.sum_range_succ']
    have : ∀ i : ℕ, th + h + i * h = th + ((i + 1 : ℕ) : K) * h := by intro i; push_cast; ring
    simp only [this]
    simp only [Nat.cast_zero, zero_mul, add_zero]
    abel

/-- Gragg's scheme for `x' = g(t)` is the trapezoidal rule -/
theorem graggValue_time [CharZero K] (g : K → V) (m : ℕ) (hm : 1 ≤ m) (x : V) (t dt : K) :
    graggValue (fun _ s => g s) m x t dt =
      x + ∑ i ∈ Finset.range m, (dt / m / 2) • (g (t + i * (dt / m)) + g (t + (i + 1 : ℕ) * (dt / m))) := by
  obtain ⟨n, rfl⟩ : ∃ n, m = n + 1 := ⟨m - 1, by omega⟩
  simp only [graggValue, Nat.add_sub_cancel]
  rw [gragg_time]
  generalize dt / ((n + 1 : ℕ) : K) = h
  have e1 : ∀ i : ℕ, t + h + i * h = t + ((i + 1 : ℕ) : K) * h := by intro i; push_cast; ring
  simp only [e1]
  have e2 : ∑ i ∈ Finset.range (n + 1), (h / 2) • (g (t + i * h) + g (t + (i + 1 : ℕ) * h)) =
      (h / 2) • (∑ i ∈ Finset.range (n + 1), g (t + i * h)) +
      (h / 2) • ∑ i ∈ Finset.range (n + 1), g (t + (i + 1 : ℕ) * h) := by
    rw [Finset.smul_sum, Finset.smul_sum, ← Finset.sum_add_distrib]
    simp only [smul_add]
  rw [e2, Finset.sum_range_succ', Finset.sum_range_succ (fun i : ℕ => g (t + (i + 1 : ℕ) * h)), ← Finset.smul_sum]
  simp only [Nat.cast_zero, zero_mul, add_zero]
  generalize ∑ i ∈ Finset.range n, g (t + (i + 1 : ℕ) * h) = S
  have h2 : (2 : K) ≠ 0 := by norm_num
  have : h / 2 = (1 / 2) * h := by field_simp
  rw [this]
  have e3 : (x : V) = ((1 / 2 : K) * 2) • x := by rw [show (1 / 2 : K) * 2 = 1 by norm_num, one_smul]
  conv_rhs => rw [e3]
  have e4 : h • S = ((1 / 2 : K) * 2 * h) • S := by rw [show (1 / 2 : K) * 2 * h = h by field_simp]
  module

end Verif
