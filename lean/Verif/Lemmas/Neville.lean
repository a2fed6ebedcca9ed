import Verif.Spec.Midpoint
import Verif.Spec.ButcherTableau
import Verif.Lemmas.Butcher
import Mathlib.LinearAlgebra.Lagrange
import Mathlib.Algebra.Module.BigOperators
import Mathlib.Tactic.FieldSimp
import Mathlib.Tactic.Ring
import Mathlib.Tactic.Module
import Mathlib.Tactic.LinearCombination

/-!
# Neville's tableau

For nodes `u i` the tableau entry computes the value at `0` of the interpolation polynomial.
-/

namespace Verif
open Polynomial
variable {K V : Type} [Field K] [AddCommGroup V] [Module K V]

/-- the extrapolation coefficient for nodes `u` (`u i = 1 / n_i ^ 2`) -/
def nodeCoeff (u : ℕ → K) (k i : ℕ) : K := u k / (u i - u k)

theorem lin_pair {a b : K} {x y : V} : lin [(a, x), (b, y)] = a • x + b • y := by
  show List.sum _ = _
  simp

/-- the tableau of scalar data is the interpolation polynomial at zero -/
theorem neville_interpolate (u : ℕ → K) (y : ℕ → K) :
    ∀ d k, d ≤ k → Set.InjOn u (Finset.Icc (k - d) k) →
    neville (nodeCoeff u) y d k = (Lagrange.interpolate (Finset.Icc (k - d) k) u y).eval 0 := by
  intro d
  induction d with
  | zero =>
    intro k _ _
    simp [neville]
  | succ d ih =>
    intro k hk hinj
    obtain ⟨j, rfl⟩ : ∃ j, k = j + 1 := ⟨k - 1, by omega⟩
    have e1 : j + 1 - (d + 1) = j - d := by omega
    rw [e1] at hinj ⊢
    have hmem1 : j + 1 ∈ Finset.Icc (j - d) (j + 1) := by simp; omega
    have hmem2 : j - d ∈ Finset.Icc (j - d) (j + 1) := by simp; omega
    have hne : j + 1 ≠ j - d := by omega
    have hu : u (j + 1) ≠ u (j - d) := fun h => hne (hinj (by exact_mod_cast hmem1) (by exact_mod_cast hmem2) h)
    rw [Lagrange.interpolate_eq_add_interpolate_erase y hinj hmem1 hmem2 hne]
    have s1 : (Finset.Icc (j - d) (j + 1)).erase (j - d) = Finset.Icc (j + 1 - d) (j + 1) := by
      ext a
      simp only [Finset.mem_erase, Finset.mem_Icc]
      omega
    have s2 : (Finset.Icc (j - d) (j + 1)).erase (j + 1) = Finset.Icc (j - d) j := by
      ext a
      simp only [Finset.mem_erase, Finset.mem_Icc]
      omega
    rw [s1, s2]
    unfold neville
    rw [ih (j + 1) (by omega) (hinj.mono (by intro a; simp; omega)),
      show j + 1 - 1 = j by omega, ih j (by omega) (hinj.mono (by intro a; simp; omega)), lin_pair, e1]
    have h1 : u (j - d) - u (j + 1) ≠ 0 := sub_ne_zero.mpr hu.symm
    have h2 : u (j + 1) - u (j - d) ≠ 0 := sub_ne_zero.mpr hu
    simp only [eval_add, eval_mul, Lagrange.basisDivisor, eval_C, eval_sub, eval_X, nodeCoeff, smul_eq_mul]
    rw [show (lit 1 : K) = 1 by simp [lit]]
    have h3 : u (j + 1) - u (j - d) = -(u (j - d) - u (j + 1)) := by ring
    rw [h3, inv_neg]
    generalize eval 0 ((Lagrange.interpolate (Finset.Icc (j + 1 - d) (j + 1)) u) y) = A
    generalize eval 0 ((Lagrange.interpolate (Finset.Icc (j - d) j) u) y) = B
    generalize u (j + 1) = a at *
    generalize u (j - d) = b at *
    have h4 : (b - a) * (b - a)⁻¹ = 1 := mul_inv_cancel₀ h1
    rw [div_eq_mul_inv]
    generalize (b - a)⁻¹ = s at *
    linear_combination (-A) * h4

/-- scalar polynomial data of degree at most `d` are extrapolated exactly -/
theorem neville_poly (u : ℕ → K) (p : K[X]) (d k : ℕ) (hk : d ≤ k) (hp : p.natDegree ≤ d)
    (hinj : Set.InjOn u (Finset.Icc (k - d) k)) :
    neville (nodeCoeff u) (fun i => p.eval (u i)) d k = p.eval 0 := by
  rw [neville_interpolate u _ d k hk hinj, ← Lagrange.eq_interpolate hinj]
  have : (Finset.Icc (k - d) k).card = d + 1 := by simp; omega
  rw [this]
  exact lt_of_le_of_lt degree_le_natDegree (by exact_mod_cast Nat.lt_succ_of_le hp)

/-- the tableau is linear -/
theorem neville_add (c : ℕ → ℕ → K) (y z : ℕ → V) : ∀ d k,
    neville c (fun i => y i + z i) d k = neville c y d k + neville c z d k := by
  intro d
  induction d with
  | zero => intro k; rfl
  | succ d ih =>
    intro k
    simp only [neville, ih, lin_pair]
    module

theorem neville_smul (c : ℕ → ℕ → K) (a : ℕ → K) (v : V) : ∀ d k,
    neville c (fun i => a i • v) d k = neville c a d k • v := by
  intro d
  induction d with
  | zero => intro k; rfl
  | succ d ih =>
    intro k
    simp only [neville, ih, lin_pair, smul_eq_mul]
    module

theorem neville_zero (c : ℕ → ℕ → K) : ∀ d k, neville c (fun _ => (0 : V)) d k = 0 := by
  intro d
  induction d with
  | zero => intro k; rfl
  | succ d ih =>
    intro k
    simp only [neville, ih, lin_pair]
    module

theorem neville_sum {ι : Type} (c : ℕ → ℕ → K) (s : Finset ι) (y : ι → ℕ → V) (d k : ℕ) :
    neville c (fun i => ∑ j ∈ s, y j i) d k = ∑ j ∈ s, neville c (y j) d k := by
  classical
  induction s using Finset.induction_on with
  | empty => simp [neville_zero]
  | insert a s ha ih => simp only [Finset.sum_insert ha, neville_add, ih]

theorem neville_linear {V' : Type} [AddCommGroup V'] [Module K V'] (L : V →ₗ[K] V') (c : ℕ → ℕ → K) (y : ℕ → V) :
    ∀ d k, neville c (fun i => L (y i)) d k = L (neville c y d k) := by
  intro d
  induction d with
  | zero => intro k; rfl
  | succ d ih =>
    intro k
    simp only [neville, ih, lin_pair, map_add, map_smul]

/-- the coefficients of `extrapolation_stepper` -/
theorem exCoeff_eq [CharZero K] (k i : ℕ) (hne : k ≠ i) :
    exCoeff (K := K) k i = nodeCoeff (fun i => 1 / (interval i : K) ^ 2) k i := by
  have h1 : ((interval k : ℕ) : K) ≠ 0 := by exact_mod_cast (by unfold interval; omega : interval k ≠ 0)
  have h2 : ((interval i : ℕ) : K) ≠ 0 := by exact_mod_cast (by unfold interval; omega : interval i ≠ 0)
  have h3 : ((interval k : ℕ) : K) ^ 2 - (interval i : K) ^ 2 ≠ 0 := by
    rw [sub_ne_zero]
    intro h
    have : interval k ^ 2 = interval i ^ 2 := by exact_mod_cast h
    have := Nat.pow_left_injective (n := 2) (by norm_num) this
    unfold interval at this
    omega
  unfold exCoeff nodeCoeff
  simp only [lit, Int.cast_natCast, Int.cast_one]
  have e1 : (interval k : K) / interval i * (interval k / interval i) - 1 =
    ((interval k : K) ^ 2 - interval i ^ 2) / interval i ^ 2 := by field_simp
  have e2 : 1 / (interval i : K) ^ 2 - 1 / interval k ^ 2 =
    ((interval k : K) ^ 2 - interval i ^ 2) / (interval i ^ 2 * interval k ^ 2) := by field_simp
  rw [e1, e2]
  field_simp

theorem neville_exCoeff [CharZero K] (y : ℕ → V) : ∀ d k, d ≤ k →
    neville (exCoeff (K := K)) y d k = neville (nodeCoeff fun i => 1 / (interval i : K) ^ 2) y d k := by
  intro d
  induction d with
  | zero => intro k _; rfl
  | succ d ih =>
    intro k hk
    simp only [neville]
    rw [ih k (by omega), ih (k - 1) (by omega), exCoeff_eq k (k - (d + 1)) (by omega)]

theorem interval_inj [CharZero K] (s : Set ℕ) : Set.InjOn (fun i => 1 / (interval i : K) ^ 2) s := by
  intro a _ b _ h
  have h1 : ((interval a : ℕ) : K) ≠ 0 := by exact_mod_cast (by unfold interval; omega : interval a ≠ 0)
  have h2 : ((interval b : ℕ) : K) ≠ 0 := by exact_mod_cast (by unfold interval; omega : interval b ≠ 0)
  simp only [one_div, inv_inj] at h
  have : interval a ^ 2 = interval b ^ 2 := by exact_mod_cast h
  have := Nat.pow_left_injective (n := 2) (by norm_num) this
  unfold interval at this
  omega

end Verif
