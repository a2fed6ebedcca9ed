import Verif.Lemmas.Extrapolation
import Mathlib.Algebra.Module.LinearMap.End
import Mathlib.Algebra.Polynomial.Module.AEval
import Mathlib.Tactic.FieldSimp

/-!
# Gragg's scheme for linear systems

For `x' = A x` the scheme with `m` sub-steps of size `h` is a polynomial in `h A`; for even `m` its coefficients, divided by the
powers of `m`, are polynomials in `1 / m^2`.
-/

namespace Verif
open Polynomial
variable {K V W : Type} [Field K] [AddCommGroup V] [Module K V]

/-- the leap-frog polynomials: `Y 0 = 1`, `Y 1 = 1 + z`, `Y (n+2) = Y n + 2 z Y (n+1)` -/
noncomputable def graggY : ℕ → K[X]
  | 0 => 1
  | 1 => 1 + X
  | n + 2 => graggY n + C 2 * X * graggY (n + 1)

theorem graggY_degree : ∀ n, (graggY (K := K) n).natDegree ≤ n
  | 0 => by simp [graggY]
  | 1 => by
      unfold graggY
      refine (natDegree_add_le _ _).trans ?_
      simp
  | n + 2 => by
      unfold graggY
      refine (natDegree_add_le _ _).trans (max_le ((graggY_degree n).trans (by omega)) ?_)
      refine natDegree_mul_le.trans ?_
      have h1 := graggY_degree (n + 1)
      have h2 : (C (2:K) * X).natDegree ≤ 1 := natDegree_C_mul_le _ _ |>.trans natDegree_X_le
      omega

/-- the smoothed value for `2 r` sub-steps -/
noncomputable def graggS (r : ℕ) : K[X] := C (1 / 2) * (graggY (2 * r + 1) + (1 - X) * graggY (2 * r))

theorem gragg_linear (A : V →ₗ[K] V) (h : K) (x : V) : ∀ n i th,
    gragg (fun y _ => A y) h n th (aeval (h • A) (graggY (K := K) i) x) (aeval (h • A) (graggY (K := K) (i + 1)) x) =
      (aeval (h • A) (graggY (K := K) (i + n)) x, aeval (h • A) (graggY (K := K) (i + n + 1)) x) := by
  intro n
  induction n with
  | zero => intro i th; rfl
  | succ n ih =>
    intro i th
    simp only [gragg]
    have : aeval (h • A) (graggY (K := K) i) x + (2 * h) • A (aeval (h • A) (graggY (K := K) (i + 1)) x) =
        aeval (h • A) (graggY (K := K) (i + 1 + 1)) x := by
      rw [show i + 1 + 1 = i + 2 from rfl]
      conv_rhs => unfold graggY
      simp only [map_add, map_mul, aeval_C, aeval_X, LinearMap.add_apply, Module.End.mul_apply,
        Module.algebraMap_end_apply, LinearMap.smul_apply]
      rw [smul_smul]
    rw [this, ih (i + 1)]
    rw [show i + 1 + n = i + (n + 1) by ring]

theorem graggValue_linear [CharZero K] (A : V →ₗ[K] V) (r : ℕ) (hr : 1 ≤ r) (x : V) (t dt : K) :
    graggValue (fun y _ => A y) (2 * r) x t dt = aeval ((dt / (2 * r : ℕ)) • A) (graggS (K := K) r) x := by
  simp only [graggValue]
  generalize dt / ((2 * r : ℕ) : K) = h
  have h0 : x = aeval (h • A) (graggY (K := K) 0) x := by simp [graggY]
  have h1 : x + h • A x = aeval (h • A) (graggY (K := K) (0 + 1)) x := by
    simp [graggY, aeval_X]
  have key := gragg_linear A h x (2 * r - 1) 0 (t + h)
  rw [← h0, ← h1] at key
  rw [key]
  obtain ⟨s, rfl⟩ : ∃ s, r = s + 1 := ⟨r - 1, by omega⟩
  have e1 : 0 + (2 * (s + 1) - 1) = 2 * s + 1 := by omega
  have e2 : graggS (K := K) (s + 1) = C (1 / 2) * (graggY (2 * s + 1) + (1 + X) * graggY (2 * s + 1 + 1)) := by
    unfold graggS
    rw [show 2 * (s + 1) + 1 = (2 * s + 1) + 2 by ring, show 2 * (s + 1) = 2 * s + 1 + 1 by ring]
    conv_lhs => rw [graggY]
    rw [show (C (2:K)) = 2 from rfl]
    ring
  rw [e1, e2]
  simp only [map_add, map_mul, aeval_C, aeval_X, LinearMap.add_apply, Module.End.mul_apply,
    Module.algebraMap_end_apply, LinearMap.smul_apply, map_one, Module.End.one_apply, add_mul, one_mul]
  module

theorem graggY_double (n : ℕ) :
    graggY (K := K) (n + 4) = (2 + 4 * X ^ 2) * graggY (n + 2) - graggY n := by
  have a1 : graggY (K := K) (n + 4) = graggY (n + 2) + C 2 * X * graggY (n + 3) := by conv_lhs => rw [graggY]
  have a2 : graggY (K := K) (n + 3) = graggY (n + 1) + C 2 * X * graggY (n + 2) := by conv_lhs => rw [graggY]
  have a3 : graggY (K := K) (n + 2) = graggY n + C 2 * X * graggY (n + 1) := by conv_lhs => rw [graggY]
  rw [show (C (2:K)) = 2 from rfl] at *
  linear_combination a1 + 2 * X * a2 - a3

theorem graggS_rec (r : ℕ) :
    graggS (K := K) (r + 2) = (2 + 4 * X ^ 2) * graggS (r + 1) - graggS r := by
  have a := graggY_double (K := K) (2 * r + 1)
  have b := graggY_double (K := K) (2 * r)
  unfold graggS
  rw [show 2 * (r + 2) + 1 = 2 * r + 1 + 4 by ring, show 2 * (r + 2) = 2 * r + 4 by ring,
    show 2 * (r + 1) + 1 = 2 * r + 1 + 2 by ring, show 2 * (r + 1) = 2 * r + 2 by ring, a, b]
  ring

theorem graggS_zero [CharZero K] : graggS (K := K) 0 = 1 := by
  unfold graggS
  simp only [mul_zero, zero_add, graggY]
  rw [show (1 + X + (1 - X) * 1 : K[X]) = C 2 by rw [show (C (2:K)) = 2 from rfl]; ring, ← C_mul]
  norm_num

theorem graggS_one [CharZero K] : graggS (K := K) 1 = 1 + C 2 * X + C 2 * X ^ 2 + X ^ 3 := by
  unfold graggS
  have a3 : graggY (K := K) 2 = graggY 0 + C 2 * X * graggY 1 := by conv_lhs => rw [graggY]
  have a4 : graggY (K := K) 3 = graggY 1 + C 2 * X * graggY 2 := by conv_lhs => rw [graggY]
  rw [show 2 * 1 + 1 = 3 from rfl, show 2 * 1 = 2 from rfl, a4, a3]
  simp only [graggY]
  have : C (1 / 2 : K) * C 2 = 1 := by rw [← C_mul]; norm_num
  rw [show (C (2:K)) = 2 from rfl] at *
  linear_combination (1 + 2 * X + 2 * X ^ 2 + X ^ 3) * this

/-- `(r^2 - 0) (r^2 - 1) ... (r^2 - (k-1)^2)` -/
def evenFac (k : ℕ) (r : K) : K := ∏ i ∈ Finset.range k, (r ^ 2 - (i : K) ^ 2)

/-- `r (r^2 - 1) ... (r^2 - k^2)` -/
def oddFac (k : ℕ) (r : K) : K := r * ∏ i ∈ Finset.range k, (r ^ 2 - ((i : K) + 1) ^ 2)

theorem evenFac_succ (k : ℕ) (r : K) : evenFac (k + 1) r = evenFac k r * (r ^ 2 - (k : K) ^ 2) := by
  simp [evenFac, Finset.prod_range_succ]

theorem oddFac_succ (k : ℕ) (r : K) : oddFac (k + 1) r = oddFac k r * (r ^ 2 - ((k : K) + 1) ^ 2) := by
  simp [oddFac, Finset.prod_range_succ, mul_assoc]

theorem evenFac_up (k : ℕ) (r : K) :
    r * evenFac (k + 1) (r + 1) = (r + 1) * (r + k) * (r + k + 1) * evenFac k r := by
  induction k with
  | zero => simp [evenFac]; ring
  | succ k ih =>
    rw [evenFac_succ (k + 1), evenFac_succ k r]
    push_cast
    linear_combination ((r + 1) ^ 2 - ((k : K) + 1) ^ 2) * ih

theorem evenFac_down (k : ℕ) (r : K) :
    r * evenFac (k + 1) (r - 1) = (r - 1) * (r - k) * (r - k - 1) * evenFac k r := by
  induction k with
  | zero => simp [evenFac]; ring
  | succ k ih =>
    rw [evenFac_succ (k + 1), evenFac_succ k r]
    push_cast
    linear_combination ((r - 1) ^ 2 - ((k : K) + 1) ^ 2) * ih

theorem evenFac_rec (k : ℕ) (r : K) (hr : r ≠ 0) :
    evenFac (k + 1) (r + 1) + evenFac (k + 1) (r - 1) =
      2 * evenFac (k + 1) r + (2 * k + 2) * (2 * k + 1) * evenFac k r := by
  have h1 := evenFac_up k r
  have h2 := evenFac_down k r
  have h3 := evenFac_succ k r
  apply mul_left_cancel₀ hr
  linear_combination h1 + h2 - 2 * r * h3

theorem oddFac_up (k : ℕ) (r : K) :
    oddFac (k + 1) (r + 1) = (r + k + 1) * (r + k + 2) * oddFac k r := by
  induction k with
  | zero => simp [oddFac]; ring
  | succ k ih =>
    rw [oddFac_succ (k + 1), oddFac_succ k r]
    push_cast
    linear_combination ((r + 1) ^ 2 - ((k : K) + 1 + 1) ^ 2) * ih

theorem oddFac_down (k : ℕ) (r : K) :
    oddFac (k + 1) (r - 1) = (r - k - 1) * (r - k - 2) * oddFac k r := by
  induction k with
  | zero => simp [oddFac]; ring
  | succ k ih =>
    rw [oddFac_succ (k + 1), oddFac_succ k r]
    push_cast
    linear_combination ((r - 1) ^ 2 - ((k : K) + 1 + 1) ^ 2) * ih

theorem oddFac_rec (k : ℕ) (r : K) :
    oddFac (k + 1) (r + 1) + oddFac (k + 1) (r - 1) =
      2 * oddFac (k + 1) r + (2 * k + 3) * (2 * k + 2) * oddFac k r := by
  have h1 := oddFac_up k r
  have h2 := oddFac_down k r
  have h3 := oddFac_succ k r
  linear_combination h1 + h2 - 2 * h3

/-- coefficients of the smoothed value -/
def sigmaEven (k : ℕ) (r : K) : K := 4 ^ k * evenFac k r / (2 * k).factorial
@[inherit_doc sigmaEven] def tauOdd (k : ℕ) (r : K) : K := 2 * 4 ^ k * oddFac k r / (2 * k + 1).factorial
@[inherit_doc sigmaEven] def sigmaOdd : ℕ → K → K
  | 0, r => tauOdd 0 r
  | k + 1, r => tauOdd (k + 1) r + 1 / 2 * tauOdd k r

theorem sigmaEven_rec [CharZero K] (k : ℕ) (r : K) (hr : r ≠ 0) :
    sigmaEven (k + 1) (r + 1) = 2 * sigmaEven (k + 1) r + 4 * sigmaEven k r - sigmaEven (k + 1) (r - 1) := by
  have h := evenFac_rec k r hr
  have hf : ((2 * (k + 1)).factorial : K) = (2 * k + 2) * (2 * k + 1) * (2 * k).factorial := by
    rw [show 2 * (k + 1) = 2 * k + 1 + 1 by ring, Nat.factorial_succ, Nat.factorial_succ]; push_cast; ring
  have h0 : ((2 * k).factorial : K) ≠ 0 := by exact_mod_cast Nat.factorial_ne_zero _
  have h1 : (2 * (k:K) + 2) ≠ 0 := by exact_mod_cast (by omega : 2 * k + 2 ≠ 0)
  have h2 : (2 * (k:K) + 1) ≠ 0 := by exact_mod_cast (by omega : 2 * k + 1 ≠ 0)
  unfold sigmaEven
  rw [hf, pow_succ]
  field_simp
  linear_combination h

theorem tauOdd_rec [CharZero K] (k : ℕ) (r : K) :
    tauOdd (k + 1) (r + 1) = 2 * tauOdd (k + 1) r + 4 * tauOdd k r - tauOdd (k + 1) (r - 1) := by
  have h := oddFac_rec k r
  have hf : ((2 * (k + 1) + 1).factorial : K) = (2 * k + 3) * (2 * k + 2) * (2 * k + 1).factorial := by
    rw [show 2 * (k + 1) + 1 = 2 * k + 1 + 1 + 1 by ring, Nat.factorial_succ, Nat.factorial_succ]; push_cast; ring
  have h0 : ((2 * k + 1).factorial : K) ≠ 0 := by exact_mod_cast Nat.factorial_ne_zero _
  have h1 : (2 * (k:K) + 3) ≠ 0 := by exact_mod_cast (by omega : 2 * k + 3 ≠ 0)
  have h2 : (2 * (k:K) + 2) ≠ 0 := by exact_mod_cast (by omega : 2 * k + 2 ≠ 0)
  unfold tauOdd
  rw [hf, pow_succ]
  field_simp
  linear_combination h

theorem tauOdd_rec0 (r : K) : tauOdd 0 (r + 1) = 2 * tauOdd 0 r - tauOdd 0 (r - 1) := by
  simp [tauOdd, oddFac]; ring

theorem sigmaOdd_rec [CharZero K] (k : ℕ) (r : K) :
    sigmaOdd (k + 1) (r + 1) = 2 * sigmaOdd (k + 1) r + 4 * sigmaOdd k r - sigmaOdd (k + 1) (r - 1) := by
  cases k with
  | zero =>
    simp only [sigmaOdd]
    linear_combination tauOdd_rec 0 r + 1 / 2 * tauOdd_rec0 r
  | succ k =>
    simp only [sigmaOdd]
    linear_combination tauOdd_rec (k + 1) r + 1 / 2 * tauOdd_rec k r

theorem evenFac_one (k : ℕ) : evenFac (K := K) (k + 2) 1 = 0 := by
  unfold evenFac
  exact Finset.prod_eq_zero (i := 1) (by simp) (by simp)

theorem oddFac_one (k : ℕ) : oddFac (K := K) (k + 1) 1 = 0 := by
  unfold oddFac
  rw [Finset.prod_eq_zero (i := 0) (by simp) (by simp), mul_zero]

theorem evenFac_zero (k : ℕ) : evenFac (K := K) (k + 1) 0 = 0 := by
  unfold evenFac
  exact Finset.prod_eq_zero (i := 0) (by simp) (by simp)

theorem oddFac_zero (k : ℕ) : oddFac (K := K) k 0 = 0 := by simp [oddFac]

/-- the coefficients of the smoothed values -/
theorem graggS_coeff [CharZero K] : ∀ r k : ℕ,
    (graggS (K := K) r).coeff (2 * k) = sigmaEven k (r : K) ∧
    (graggS (K := K) r).coeff (2 * k + 1) = sigmaOdd k (r : K) := by
  intro r
  induction r using Nat.strong_induction_on with
  | _ r ih =>
    match r, ih with
    | 0, _ =>
      intro k
      rw [graggS_zero]
      constructor
      · cases k with
        | zero => simp [sigmaEven, evenFac]
        | succ k => rw [coeff_one, if_neg (by omega)]; simp [sigmaEven, evenFac_zero]
      · rw [coeff_one, if_neg (by omega)]
        cases k with
        | zero => simp [sigmaOdd, tauOdd, oddFac_zero]
        | succ k => simp [sigmaOdd, tauOdd, oddFac_zero]
    | 1, _ =>
      intro k
      rw [graggS_one]
      simp only [coeff_add, coeff_C_mul, coeff_X_pow, coeff_X, coeff_one, Nat.cast_one]
      match k with
      | 0 => simp [sigmaEven, evenFac, sigmaOdd, tauOdd, oddFac]
      | 1 =>
        simp [sigmaEven, evenFac, sigmaOdd, tauOdd, oddFac, Finset.prod_range_succ]
        norm_num [Nat.factorial]
      | k + 2 =>
        constructor
        · rw [if_neg (by omega), if_neg (by omega), if_neg (by omega), if_neg (by omega)]
          simp [sigmaEven, evenFac_one]
        · rw [if_neg (by omega), if_neg (by omega), if_neg (by omega), if_neg (by omega)]
          simp [sigmaOdd, tauOdd, oddFac_one]
    | r + 2, ih =>
      intro k
      have i1 := ih (r + 1) (by omega)
      have i0 := ih r (by omega)
      rw [graggS_rec]
      have hc : ∀ n, ((2 + 4 * X ^ 2) * graggS (K := K) (r + 1) - graggS r).coeff n =
          2 * (graggS (K := K) (r + 1)).coeff n + 4 * (if 2 ≤ n then (graggS (K := K) (r + 1)).coeff (n - 2) else 0) -
            (graggS (K := K) r).coeff n := by
        intro n
        rw [coeff_sub, add_mul, coeff_add, show (2 : K[X]) = C 2 from rfl, coeff_C_mul, show (4 : K[X]) = C 4 from rfl, mul_assoc,
          coeff_C_mul, coeff_X_pow_mul']
      have hr1 : ((r + 1 : ℕ) : K) ≠ 0 := by exact_mod_cast (by omega : r + 1 ≠ 0)
      have c2 : ((r + 2 : ℕ) : K) = ((r + 1 : ℕ) : K) + 1 := by push_cast; ring
      have c0 : ((r : ℕ) : K) = ((r + 1 : ℕ) : K) - 1 := by push_cast; ring
      constructor
      · rw [hc, (i1 k).1, (i0 k).1, c2, c0]
        cases k with
        | zero =>
          rw [if_neg (by omega)]
          simp [sigmaEven, evenFac]; norm_num
        | succ k =>
          rw [if_pos (by omega), show 2 * (k + 1) - 2 = 2 * k by omega, (i1 k).1, sigmaEven_rec _ _ hr1]
      · rw [hc, (i1 k).2, (i0 k).2, c2, c0]
        cases k with
        | zero =>
          rw [if_neg (by omega)]
          simp only [sigmaOdd]
          rw [tauOdd_rec0]; ring
        | succ k =>
          rw [if_pos (by omega), show 2 * (k + 1) + 1 - 2 = 2 * k + 1 by omega, (i1 k).2, sigmaOdd_rec]

theorem graggS_degree (r : ℕ) : (graggS (K := K) r).natDegree ≤ 2 * r + 1 := by
  unfold graggS
  refine (natDegree_C_mul_le _ _).trans ((natDegree_add_le _ _).trans (max_le (graggY_degree _) ?_))
  refine natDegree_mul_le.trans ?_
  have h1 := graggY_degree (K := K) (2 * r)
  have h2 : (1 - X : K[X]).natDegree ≤ 1 := by
    refine (natDegree_sub_le _ _).trans (max_le (by simp) natDegree_X_le)
  omega

/-- `(1 - 4 u) (1 - 16 u) ... (1 - 4 k^2 u)` -/
noncomputable def sqProd (k : ℕ) : K[X] := ∏ i ∈ Finset.range k, (1 - C (4 * ((i : K) + 1) ^ 2) * X)

theorem sqProd_degree (k : ℕ) : (sqProd (K := K) k).natDegree ≤ k := by
  unfold sqProd
  refine (natDegree_prod_le _ _).trans ?_
  have : ∀ i ∈ Finset.range k, (1 - C (4 * ((i : K) + 1) ^ 2) * X : K[X]).natDegree ≤ 1 := by
    intro i _
    refine (natDegree_sub_le _ _).trans (max_le (by simp) ?_)
    exact (natDegree_C_mul_le _ _).trans natDegree_X_le
  refine (Finset.sum_le_sum this).trans ?_
  simp

theorem sqProd_zero (k : ℕ) : (sqProd (K := K) k).eval 0 = 1 := by
  simp [sqProd, eval_prod]

theorem sqProd_eval [CharZero K] (k r : ℕ) (hr : 1 ≤ r) :
    oddFac k (r : K) = (r : K) ^ (2 * k + 1) * (sqProd (K := K) k).eval (1 / ((2 * r : ℕ) : K) ^ 2) := by
  have h0 : (r : K) ≠ 0 := by exact_mod_cast (by omega : r ≠ 0)
  unfold oddFac sqProd
  rw [eval_prod]
  induction k with
  | zero => simp
  | succ k ih =>
    rw [Finset.prod_range_succ, Finset.prod_range_succ, ← mul_assoc, ih]
    generalize (∏ j ∈ Finset.range k, eval (1 / ((2 * r : ℕ) : K) ^ 2) (1 - C (4 * ((j : K) + 1) ^ 2) * X)) = P
    simp only [eval_sub, eval_one, eval_mul, eval_C, eval_X]
    push_cast
    field_simp
    ring

/-- the coefficient of `(dt A)^j` in the result of `m` sub-steps, as a polynomial in `1 / m^2` -/
noncomputable def graggQ : ℕ → K[X]
  | 0 => 1
  | 1 => 1
  | j + 2 =>
      if j % 2 = 0 then C (1 / ((j + 2).factorial : K)) * sqProd (j / 2)
      else C (1 / ((j + 2).factorial : K)) * sqProd (j / 2 + 1) + C (1 / (2 * (j.factorial : K))) * X * sqProd (j / 2)

theorem graggQ_zero (j : ℕ) : (graggQ (K := K) j).eval 0 = 1 / (j.factorial : K) := by
  match j with
  | 0 => simp [graggQ]
  | 1 => simp [graggQ]
  | j + 2 =>
    rw [graggQ]
    split_ifs <;> simp [sqProd_zero]

theorem graggQ_degree (j : ℕ) : (graggQ (K := K) j).natDegree ≤ (j - 1) / 2 := by
  match j with
  | 0 => simp [graggQ]
  | 1 => simp [graggQ]
  | j + 2 =>
    rw [graggQ]
    split_ifs with h
    · refine (natDegree_C_mul_le _ _).trans ((sqProd_degree _).trans ?_)
      omega
    · refine (natDegree_add_le _ _).trans (max_le ?_ ?_)
      · refine (natDegree_C_mul_le _ _).trans ((sqProd_degree _).trans ?_)
        omega
      · refine natDegree_mul_le.trans ?_
        have h1 := sqProd_degree (K := K) (j / 2)
        have h2 : (C (1 / (2 * (j.factorial : K))) * X).natDegree ≤ 1 := (natDegree_C_mul_le _ _).trans natDegree_X_le
        omega

theorem graggQ_coeff [CharZero K] (r : ℕ) (hr : 1 ≤ r) (j : ℕ) :
    (graggS (K := K) r).coeff j = ((2 * r : ℕ) : K) ^ j * (graggQ (K := K) j).eval (1 / ((2 * r : ℕ) : K) ^ 2) := by
  have h0 : (r : K) ≠ 0 := by exact_mod_cast (by omega : r ≠ 0)
  match j with
  | 0 =>
    have := (graggS_coeff (K := K) r 0).1
    rw [mul_zero] at this
    rw [this]
    simp [graggQ, sigmaEven, evenFac]
  | 1 =>
    have := (graggS_coeff (K := K) r 0).2
    rw [mul_zero, zero_add] at this
    rw [this]
    simp [graggQ, sigmaOdd, tauOdd, oddFac]
  | j + 2 =>
    rw [graggQ]
    rcases Nat.even_or_odd' j with ⟨k, rfl | rfl⟩
    · rw [if_pos (by omega), show 2 * k / 2 = k by omega, show 2 * k + 2 = 2 * (k + 1) by ring,
        (graggS_coeff (K := K) r (k + 1)).1]
      have e : evenFac (k + 1) (r : K) = r * oddFac k (r : K) := by
        unfold evenFac oddFac
        rw [Finset.prod_range_succ']
        push_cast
        ring
      unfold sigmaEven
      rw [e, sqProd_eval k r hr]
      simp only [eval_mul, eval_C]
      generalize (sqProd (K := K) k).eval _ = s
      push_cast
      rw [mul_pow, pow_mul 2 2 (k + 1), show (2:K) ^ 2 = 4 by norm_num]
      ring
    · rw [if_neg (by omega), show (2 * k + 1) / 2 = k by omega, show 2 * k + 1 + 2 = 2 * (k + 1) + 1 by ring,
        (graggS_coeff (K := K) r (k + 1)).2]
      simp only [sigmaOdd, tauOdd]
      rw [sqProd_eval k r hr, sqProd_eval (k + 1) r hr]
      simp only [eval_mul, eval_C, eval_add, eval_X]
      generalize (sqProd (K := K) k).eval _ = s
      generalize (sqProd (K := K) (k + 1)).eval _ = s'
      have hf : ((2 * k + 1).factorial : K) ≠ 0 := by exact_mod_cast Nat.factorial_ne_zero _
      have hf' : ((2 * (k + 1) + 1).factorial : K) ≠ 0 := by exact_mod_cast Nat.factorial_ne_zero _
      push_cast
      rw [mul_pow, pow_succ 2, pow_mul 2 2 (k + 1), show (2:K) ^ 2 = 4 by norm_num]
      field_simp
      ring

end Verif
