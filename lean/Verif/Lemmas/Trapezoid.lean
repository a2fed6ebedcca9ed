import Verif.Lemmas.Extrapolation
import Mathlib.NumberTheory.Bernoulli
import Mathlib.Tactic.FieldSimp

/-!
# The trapezoidal rule has an expansion in even powers

Faulhaber's formula: for a power of `s` the trapezoidal sum with `m` intervals is a polynomial in `1 / m^2`.
-/

namespace Verif
open Polynomial
variable {K : Type} [Field K] [CharZero K]

/-- the trapezoidal sum of `s^d` over `[0, 1]` as a polynomial in `1 / m^2` -/
noncomputable def trapQ (d : ℕ) : K[X] :=
  ∑ i ∈ Finset.range (d + 1),
    if Even i then C ((bernoulli i : K) * ((d + 1).choose i : K) / ((d : K) + 1)) * X ^ (i / 2) else 0

omit [CharZero K] in
theorem trapQ_degree (d : ℕ) : (trapQ (K := K) d).natDegree ≤ d / 2 := by
  unfold trapQ
  refine natDegree_sum_le_of_forall_le _ _ fun i hi => ?_
  split_ifs
  · refine (natDegree_C_mul_le _ _).trans ((natDegree_X_pow_le _).trans ?_)
    have := Finset.mem_range.1 hi
    omega
  · simp

theorem trapQ_zero (d : ℕ) : (trapQ (K := K) d).eval 0 = 1 / ((d : K) + 1) := by
  unfold trapQ
  rw [eval_finset_sum, Finset.sum_eq_single 0]
  · simp
  · intro i _ h0
    split_ifs with he
    · have : i / 2 ≠ 0 := by obtain ⟨k, rfl⟩ := he; omega
      simp [this]
    · simp
  · simp

theorem faulhaber (m d : ℕ) : (∑ k ∈ Finset.range m, (k : K) ^ d) =
    ∑ i ∈ Finset.range (d + 1), (bernoulli i : K) * ((d + 1).choose i : K) * (m : K) ^ (d + 1 - i) / ((d : K) + 1) := by
  have h := congrArg (fun q : ℚ => (q : K)) (sum_range_pow m d)
  push_cast at h
  exact h

theorem trap_pow (d m : ℕ) (hm : 1 ≤ m) (dt : K) :
    (∑ i ∈ Finset.range m, dt / m / 2 * (((i : K) * (dt / m)) ^ d + (((i + 1 : ℕ) : K) * (dt / m)) ^ d)) =
      dt ^ (d + 1) * (trapQ (K := K) d).eval (1 / (m : K) ^ 2) := by
  have h0 : (m : K) ≠ 0 := by exact_mod_cast (by omega : m ≠ 0)
  have hd : ((d : K) + 1) ≠ 0 := by exact_mod_cast (by omega : d + 1 ≠ 0)
  have s1 : (∑ i ∈ Finset.range m, dt / m / 2 * (((i : K) * (dt / m)) ^ d + (((i + 1 : ℕ) : K) * (dt / m)) ^ d)) =
      (dt / m) ^ (d + 1) * (∑ i ∈ Finset.range m, ((i : K) ^ d) + ((m : K) ^ d - 0 ^ d) / 2) := by
    have tele : ∑ i ∈ Finset.range m, (((i + 1 : ℕ) : K) ^ d - (i : K) ^ d) = (m : K) ^ d - 0 ^ d := by
      have := Finset.sum_range_sub (fun i : ℕ => (i : K) ^ d) m
      simpa using this
    rw [← tele, Finset.sum_div, ← Finset.sum_add_distrib, Finset.mul_sum]
    refine Finset.sum_congr rfl fun i _ => ?_
    rw [mul_pow, mul_pow]
    ring
  have s2 : ∑ i ∈ Finset.range m, ((i : K) ^ d) + ((m : K) ^ d - 0 ^ d) / 2 =
      ∑ i ∈ Finset.range (d + 1), if Even i then
        (bernoulli i : K) * ((d + 1).choose i : K) * (m : K) ^ (d + 1 - i) / ((d : K) + 1) else 0 := by
    rw [faulhaber]
    rcases Nat.eq_zero_or_pos d with rfl | hpos
    · simp
    · have e : ∀ i, (if Even i then
          (bernoulli i : K) * ((d + 1).choose i : K) * (m : K) ^ (d + 1 - i) / ((d : K) + 1) else 0) =
          (bernoulli i : K) * ((d + 1).choose i : K) * (m : K) ^ (d + 1 - i) / ((d : K) + 1) +
            (if i = 1 then (m : K) ^ d / 2 else 0) := by
        intro i
        split_ifs with he h1 h1
        · subst h1; exact absurd he (by decide)
        · simp
        · subst h1
          rw [bernoulli_one]
          push_cast
          simp only [Nat.choose_one_right, Nat.add_sub_cancel]
          push_cast
          field_simp
          ring
        · have : bernoulli i = 0 := by
            rw [bernoulli_eq_zero_of_odd (Nat.not_even_iff_odd.1 he)]
            have := Nat.not_even_iff_odd.1 he
            obtain ⟨k, rfl⟩ := this
            omega
          rw [this]
          simp
      simp only [e]
      rw [Finset.sum_add_distrib, Finset.sum_ite_eq' (Finset.range (d + 1)) 1, if_pos (by simp; omega), zero_pow (by omega)]
      ring
  rw [s1, s2]
  unfold trapQ
  rw [eval_finset_sum, Finset.mul_sum, Finset.mul_sum]
  refine Finset.sum_congr rfl fun i hi => ?_
  split_ifs with he
  · obtain ⟨k, rfl⟩ := he
    have hi' := Finset.mem_range.1 hi
    rw [show (k + k) / 2 = k by omega]
    simp only [eval_mul, eval_C, eval_pow, eval_X]
    have e1 : (m : K) ^ (d + 1) = (m : K) ^ (d + 1 - (k + k)) * ((m : K) ^ 2) ^ k := by
      rw [← pow_mul, ← pow_add]; congr 1; omega
    rw [div_pow, div_pow, one_pow, e1]
    have p1 : (m : K) ^ (d + 1 - (k + k)) ≠ 0 := pow_ne_zero _ h0
    have p2 : ((m : K) ^ 2) ^ k ≠ 0 := pow_ne_zero _ (pow_ne_zero _ h0)
    field_simp
  · simp

end Verif
