import Verif.Props.MultistepRun
import Mathlib.Tactic.IntervalCases
import Mathlib.Tactic.FieldSimp
import Mathlib.Tactic.Ring
import Mathlib.Tactic.Abel
import Mathlib.Algebra.Module.BigOperators
import Mathlib.Algebra.CharZero.Defs

/-!
# C37: the Adams coefficients integrate polynomials exactly up to the order
-/

namespace Verif
variable {K V : Type} [Field K] [CharZero K] [AddCommGroup V] [Module K V]

/-- The polynomial `v 0 + t v 1 + ... + t^n v n`. -/
def poly (v : ℕ → V) (n : ℕ) (t : K) : V := ∑ m ∈ Finset.range (n + 1), t ^ m • v m

/-- Its derivative `v 1 + 2 t v 2 + ... + n t^(n-1) v n`. -/
def polyDeriv (v : ℕ → V) (n : ℕ) (t : K) : V := ∑ m ∈ Finset.range (n + 1), ((m : K) * t ^ (m - 1)) • v m

/-- what the formula gives for a monomial -/
def monoSum (coef : List K) (node : ℕ → K) (m : ℕ) (dt : K) : K :=
  ((coef.zipIdx).map fun p => dt * p.1 * (m * node p.2 ^ (m - 1))).sum

theorem zipIdx_sum (coef : List K) (v : ℕ → V) (n : ℕ) (node : ℕ → K) (dt : K) (i : ℕ) :
    (((coef.map (dt * ·)).zip ((List.range' i coef.length).map fun j => polyDeriv v n (node j))).map
      fun p => p.1 • p.2).sum =
    ∑ m ∈ Finset.range (n + 1), (((coef.zipIdx i).map fun p => dt * p.1 * (m * node p.2 ^ (m - 1))).sum) • v m := by
  induction coef generalizing i with
  | nil => simp
  | cons c coef ih =>
    simp only [List.length_cons, List.range'_succ, List.map_cons, List.zip_cons_cons, List.sum_cons, List.zipIdx_cons, ih,
      add_smul, Finset.sum_add_distrib]
    congr 1
    simp only [polyDeriv, Finset.smul_sum, smul_smul]

theorem abFormula_poly (coef : List K) (x : V) (dt : K) (v : ℕ → V) (n : ℕ) (node : ℕ → K) :
    abFormula coef x dt ((List.range coef.length).map fun j => polyDeriv v n (node j)) =
      x + ∑ m ∈ Finset.range (n + 1), monoSum coef node m dt • v m := by
  unfold abFormula
  show List.sum _ = _
  rw [List.map_cons, List.sum_cons, List.range_eq_range', zipIdx_sum]
  simp [lit, monoSum]

theorem poly_diff (v : ℕ → V) (n : ℕ) (s t : K) :
    poly v n s - poly v n t = ∑ m ∈ Finset.range (n + 1), (s ^ m - t ^ m) • v m := by
  simp only [poly, ← Finset.sum_sub_distrib, sub_smul]

theorem ab_mono (N : ℕ) (h1 : 1 ≤ N) (h8 : N ≤ 8) (m : ℕ) (hm : m ≤ N) (t dt : K) :
    monoSum (abCoef N) (fun j => t - j * dt) m dt = (t + dt) ^ m - t ^ m := by
  interval_cases N <;> interval_cases m <;>
    simp [monoSum, abCoef, List.zipIdx, lit, frac, nfrac] <;> field_simp <;> ring

/-- nodes of the corrector: `t + dt`, `t`, `t - dt`, ... -/
theorem am_mono (N : ℕ) (h1 : 1 ≤ N) (h8 : N ≤ 8) (m : ℕ) (hm : m ≤ N) (t dt : K) :
    monoSum (amCoef N) (fun j => t + dt - j * dt) m dt = (t + dt) ^ m - t ^ m := by
  interval_cases N <;> interval_cases m <;>
    simp [monoSum, amCoef, List.zipIdx, lit, frac, nfrac] <;> field_simp <;> ring

theorem abCoef_length (N : ℕ) (h1 : 1 ≤ N) (h8 : N ≤ 8) : (abCoef N : List K).length = N := by
  interval_cases N <;> rfl

theorem amCoef_length (N : ℕ) (h1 : 1 ≤ N) (h8 : N ≤ 8) : (amCoef N : List K).length = N := by
  interval_cases N <;> rfl

/-- **C37**: the formula of `adams_bashforth<N>`, with the derivatives at `t, t - dt, ..., t - (N-1) dt`, integrates the
derivative of every polynomial of degree at most `N = order()` exactly. -/
theorem adams_bashforth_exact (N : ℕ) (h1 : 1 ≤ N) (h8 : N ≤ 8) (v : ℕ → V) (x : V) (t dt : K) :
    abFormula (abCoef N) x dt ((List.range N).map fun j : ℕ => polyDeriv v (abOrder N) (t - j * dt)) =
      x + (poly v (abOrder N) (t + dt) - poly v (abOrder N) t) := by
  have H := abFormula_poly (abCoef N : List K) x dt v (abOrder N) (fun j => t - j * dt)
  rw [abCoef_length N h1 h8] at H
  rw [H, poly_diff]
  congr 1
  refine Finset.sum_congr rfl fun m hm => ?_
  rw [ab_mono N h1 h8 m (by simpa [abOrder, Nat.lt_succ_iff] using hm)]

/-- **C37**, partial: the corrector `adams_moulton<N>`, with the derivatives at `t + dt, t, ..., t - (N-2) dt`, integrates
the derivative of every polynomial of degree at most `N` exactly.  Its `order()` is `N + 1`, see
`adams_moulton_order_wrong`. -/
theorem adams_moulton_exact_partial (N : ℕ) (h1 : 1 ≤ N) (h8 : N ≤ 8) (v : ℕ → V) (x : V) (t dt : K) :
    abFormula (amCoef N) x dt ((List.range N).map fun j : ℕ => polyDeriv v N (t + dt - j * dt)) =
      x + (poly v N (t + dt) - poly v N t) := by
  have H := abFormula_poly (amCoef N : List K) x dt v N (fun j => t + dt - j * dt)
  rw [amCoef_length N h1 h8] at H
  rw [H, poly_diff]
  congr 1
  refine Finset.sum_congr rfl fun m hm => ?_
  rw [am_mono N h1 h8 m (by simpa [Nat.lt_succ_iff] using hm)]

/-- **C37**: along a run of `adams_bashforth<N>` for `x' = p(t)` the difference to the exact solution is constant once the
initialising stepper has done its `N-1` steps. -/
theorem adams_bashforth_run_exact (N : ℕ) (h1 : 1 ≤ N) (h8 : N ≤ 8) (init : InitStepper K) (v : ℕ → V) (t₀ dt : K)
    (X : ℕ → V) (hX : AbSolution N (abCoef N) init (fun (_ : V) t => polyDeriv v (abOrder N) t) X
      (fun n => t₀ + n * dt) dt) (n : ℕ) :
    X (N - 1 + n) - poly v (abOrder N) (t₀ + (N - 1 + n : ℕ) * dt) =
      X (N - 1) - poly v (abOrder N) (t₀ + (N - 1 : ℕ) * dt) := by
  induction n with
  | zero => rfl
  | succ n ih =>
    rw [← ih, ← add_assoc, hX.step (N - 1 + n) (by omega)]
    have e : lastDerivs N (fun (_ : V) t => polyDeriv v (abOrder N) t) X (fun n => t₀ + n * dt) (N - 1 + n) =
        (List.range N).map fun j : ℕ => polyDeriv v (abOrder N) (t₀ + (N - 1 + n : ℕ) * dt - j * dt) := by
      unfold lastDerivs
      refine List.map_congr_left fun j hj => ?_
      have : j ≤ N - 1 + n := by have := List.mem_range.1 hj; omega
      dsimp only
      rw [Nat.cast_sub this]
      congr 1; ring
    rw [e, adams_bashforth_exact N h1 h8]
    have e2 : t₀ + ((N - 1 + n + 1 : ℕ) : K) * dt = t₀ + (N - 1 + n : ℕ) * dt + dt := by push_cast; ring
    rw [e2]
    abel

/-- **C37**: the same for `adams_bashforth_moulton<N>`, whose order is `N`. -/
theorem adams_bashforth_moulton_run_exact (N : ℕ) (h1 : 1 ≤ N) (h8 : N ≤ 8) (init : InitStepper K) (v : ℕ → V)
    (t₀ dt : K) (X : ℕ → V) (hX : AbmSolution N (abCoef N) (amCoef N) init
      (fun (_ : V) t => polyDeriv v (abmOrder N) t) X (fun n => t₀ + n * dt) dt) (n : ℕ) :
    X (N - 1 + n) - poly v (abmOrder N) (t₀ + (N - 1 + n : ℕ) * dt) =
      X (N - 1) - poly v (abmOrder N) (t₀ + (N - 1 : ℕ) * dt) := by
  induction n with
  | zero => rfl
  | succ n ih =>
    rw [← ih, ← add_assoc, hX.step (N - 1 + n) (by omega)]
    have e : (polyDeriv v (abmOrder N) (t₀ + (N - 1 + n : ℕ) * dt + dt) ::
        lastDerivs N (fun (_ : V) t => polyDeriv v (abmOrder N) t) X (fun n => t₀ + n * dt) (N - 1 + n)).take N =
        (List.range N).map fun j : ℕ => polyDeriv v N (t₀ + (N - 1 + n : ℕ) * dt + dt - j * dt) := by
      obtain ⟨M, rfl⟩ : ∃ M, N = M + 1 := ⟨N - 1, by omega⟩
      rw [List.take_succ_cons, List.range_succ_eq_map, List.map_cons, List.map_map]
      congr 1
      · simp [abmOrder]
      · unfold lastDerivs
        rw [← List.map_take, List.take_range, Nat.min_eq_left (by omega)]
        refine List.map_congr_left fun j hj => ?_
        have : j ≤ M + 1 - 1 + n := by have := List.mem_range.1 hj; omega
        simp only [Function.comp, Nat.succ_eq_add_one]
        rw [Nat.cast_sub this]
        congr 1; push_cast; ring
    rw [← abFormula_take _ _ _ _ N (le_of_eq (amCoef_length N h1 h8)), e, adams_moulton_exact_partial N h1 h8]
    have e2 : t₀ + ((N - 1 + n + 1 : ℕ) : K) * dt = t₀ + (N - 1 + n : ℕ) * dt + dt := by push_cast; ring
    rw [e2]
    simp only [abmOrder]
    abel

/-- the coefficients of the polynomial `t^n` -/
def monic (n : ℕ) : ℕ → ℚ := fun m => if m = n then 1 else 0

/-- C37 is violated by `adams_moulton<N>`: it says that its order is `N + 1`, but for the solution `t^(N+1)` the corrector
formula with exact derivatives is wrong, for each of the eight `N`. -/
theorem adams_moulton_order_wrong (N : ℕ) (h1 : 1 ≤ N) (h8 : N ≤ 8) :
    abFormula (amCoef N) (0 : ℚ) (1 : ℚ) ((List.range N).map fun j : ℕ =>
        polyDeriv (monic (N + 1)) (amOrder N) (0 + 1 - j * 1 : ℚ)) ≠
      0 + (poly (monic (N + 1)) (amOrder N) (0 + 1 : ℚ) -
        poly (monic (N + 1)) (amOrder N) (0 : ℚ)) := by
  have H := abFormula_poly (amCoef N : List ℚ) (0 : ℚ) 1 (monic (N + 1)) (amOrder N)
    (fun j => 0 + 1 - j * 1)
  rw [amCoef_length N h1 h8] at H
  rw [H, poly_diff]
  simp only [smul_eq_mul, mul_ite, mul_one, mul_zero, amOrder, monic]
  rw [Finset.sum_ite_eq' , Finset.sum_ite_eq', if_pos (by simp)]
  interval_cases N <;> norm_num [monoSum, amCoef, List.zipIdx, lit, frac, nfrac]

/-- Non-vacuity: `adams_bashforth<2>` for `x' = 2t`, solution `t²`, `x(1) = 1`, `dt = 1`. -/
example : abFormula (abCoef 2) (1 : ℚ) (1 : ℚ) ((List.range 2).map fun j : ℕ =>
    polyDeriv (monic 2) (abOrder 2) (1 - j * 1 : ℚ)) = 4 := by
  rw [adams_bashforth_exact 2 (by norm_num) (by norm_num)]
  norm_num [poly, monic, abOrder, Finset.sum_range_succ]

end Verif
