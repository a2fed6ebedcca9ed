import Verif.Lemmas.BSeriesOrder
import Verif.Lemmas.Extrapolation
import Mathlib.Algebra.Polynomial.Eval.Degree
import Mathlib.Algebra.Polynomial.Degree.Lemmas
import Mathlib.Tactic.FieldSimp
import Mathlib.Tactic.Module
import Mathlib.Tactic.LinearCombination

/-!
# Gragg's scheme as a Runge-Kutta method

The elementary weights of Gragg's scheme with `m` sub-steps; for even `m` they are polynomials in `1 / m^2`.
-/

set_option linter.unusedSectionVars false

namespace Verif.BSeries
open Asymptotics Filter Topology Finset

/-- the coefficients of the sub-steps: `x_i = x + h sum_{j<i} alpha i j f_j` -/
def alpha : ℕ → ℕ → ℝ
  | 0, _ => 0
  | 1, j => if j = 0 then 1 else 0
  | i + 2, j => alpha i j + if j = i + 1 then 2 else 0

theorem alpha_eq_zero : ∀ i j, i ≤ j → alpha i j = 0
  | 0, _, _ => rfl
  | 1, j, h => by simp only [alpha]; rw [if_neg (by omega)]
  | i + 2, j, h => by simp only [alpha]; rw [if_neg (by omega), alpha_eq_zero i j (by omega), add_zero]

/-- the points of the leap-frog scheme -/
def leap {M : Type*} [AddCommGroup M] [Module ℝ M] (x : M) (h : ℝ) (g : ℕ → M) : ℕ → M
  | 0 => x
  | 1 => x + h • g 0
  | i + 2 => leap x h g i + (2 * h) • g (i + 1)

theorem leap_eq {M : Type*} [AddCommGroup M] [Module ℝ M] (x : M) (h : ℝ) (g : ℕ → M) :
    ∀ i n, i ≤ n → leap x h g i = x + h • ∑ j ∈ range n, alpha i j • g j
  | 0, n, _ => by simp [leap, alpha]
  | 1, n, hn => by
      have : (0 : ℕ) ∈ range n := by simp; omega
      simp only [leap, alpha, ite_smul, one_smul, zero_smul, Finset.sum_ite_eq', this, if_true]
  | i + 2, n, hn => by
      have : i + 1 ∈ range n := by simp; omega
      simp only [leap, alpha, leap_eq x h g i n (by omega), add_smul, Finset.sum_add_distrib, ite_smul, zero_smul, Finset.sum_ite_eq', this,
        if_true]
      module

section
variable {V : Type} [AddCommGroup V] [Module ℝ V]

/-- the stages of Gragg's scheme with sub-step size `h` -/
def graggPts (f : V → ℝ → V) (x : V) (t h : ℝ) : ℕ → V
  | 0 => x
  | 1 => x + h • f x t
  | i + 2 => graggPts f x t h i + (2 * h) • f (graggPts f x t h (i + 1)) (t + ((i + 1 : ℕ) : ℝ) * h)

def graggStage (f : V → ℝ → V) (x : V) (t h : ℝ) (i : ℕ) : V := f (graggPts f x t h i) (t + (i : ℝ) * h)

theorem graggPts_leap (f : V → ℝ → V) (x : V) (t h : ℝ) : ∀ i, graggPts f x t h i = leap x h (graggStage f x t h) i
  | 0 => rfl
  | 1 => by simp [graggPts, leap, graggStage]
  | i + 2 => by simp only [graggPts, leap, graggPts_leap f x t h i, graggStage]

theorem gragg_pts (f : V → ℝ → V) (x : V) (t h : ℝ) : ∀ n i,
    gragg f h n (t + ((i + 1 : ℕ) : ℝ) * h) (graggPts f x t h i) (graggPts f x t h (i + 1)) =
      (graggPts f x t h (i + n), graggPts f x t h (i + n + 1)) := by
  intro n
  induction n with
  | zero => intro i; rfl
  | succ n ih =>
    intro i
    have := ih (i + 1)
    simp only [gragg]
    rw [show t + ((i + 1 : ℕ) : ℝ) * h + h = t + ((i + 1 + 1 : ℕ) : ℝ) * h by push_cast; ring]
    rw [show graggPts f x t h i + (2 * h) • f (graggPts f x t h (i + 1)) (t + ((i + 1 : ℕ) : ℝ) * h) = graggPts f x t h (i + 1 + 1) from rfl,
      this, show i + 1 + n = i + (n + 1) by omega]

/-- the weights of Gragg's scheme -/
noncomputable def graggB (m i : ℕ) : ℝ := (alpha (m - 1) i + alpha m i + if i = m then 1 else 0) / (2 * m)

theorem graggValue_rk (f : V → ℝ → V) (m : ℕ) (hm : 1 ≤ m) (x : V) (t dt : ℝ) :
    graggValue f m x t dt = x + dt • ∑ i ∈ range (m + 1), graggB m i • graggStage f x t (dt / m) i := by
  have h0 : (m : ℝ) ≠ 0 := by exact_mod_cast (by omega : m ≠ 0)
  have e := gragg_pts f x t (dt / m) (m - 1) 0
  simp only [Nat.zero_add, Nat.cast_one, one_mul] at e
  rw [show m - 1 + 1 = m by omega] at e
  rw [show graggPts f x t (dt / ↑m) 0 = x from rfl, show graggPts f x t (dt / ↑m) 1 = x + (dt / ↑m) • f x t from rfl] at e
  simp only [graggValue]
  rw [e]
  simp only []
  rw [show f (graggPts f x t (dt / ↑m) m) (t + ↑m * (dt / ↑m)) = graggStage f x t (dt / m) m from rfl, graggPts_leap, graggPts_leap,
    leap_eq _ _ _ (m - 1) (m + 1) (by omega), leap_eq _ _ _ m (m + 1) (by omega)]
  have e2 : ∑ i ∈ range (m + 1), graggB m i • graggStage f x t (dt / m) i =
      (1 / (2 * (m : ℝ))) • (∑ i ∈ range (m + 1), alpha (m - 1) i • graggStage f x t (dt / m) i +
        ∑ i ∈ range (m + 1), alpha m i • graggStage f x t (dt / m) i + graggStage f x t (dt / m) m) := by
    have e3 : ∑ i ∈ range (m + 1), (if i = m then (1 : ℝ) else 0) • graggStage f x t (dt / m) i = graggStage f x t (dt / m) m := by
      simp only [ite_smul, one_smul, zero_smul, Finset.sum_ite_eq']
      rw [if_pos (by simp)]
    rw [← e3, ← Finset.sum_add_distrib, ← Finset.sum_add_distrib, Finset.smul_sum]
    refine Finset.sum_congr rfl fun i _ => ?_
    unfold graggB
    module
  rw [e2]
  have e4 : dt • (1 / (2 * (m : ℝ))) • (∑ i ∈ range (m + 1), alpha (m - 1) i • graggStage f x t (dt / m) i +
        ∑ i ∈ range (m + 1), alpha m i • graggStage f x t (dt / m) i + graggStage f x t (dt / m) m) =
      (dt / m / 2) • (∑ i ∈ range (m + 1), alpha (m - 1) i • graggStage f x t (dt / m) i +
        ∑ i ∈ range (m + 1), alpha m i • graggStage f x t (dt / m) i + graggStage f x t (dt / m) m) := by
    rw [smul_smul]
    congr 1
    field_simp
  rw [e4]
  module

theorem graggStage_rk (f : V → ℝ → V) (m : ℕ) (hm : 1 ≤ m) (x : V) (t dt : ℝ) (i : ℕ) :
    graggStage f x t (dt / m) i =
      f (x + dt • ∑ j ∈ range i, (alpha i j / m) • graggStage f x t (dt / m) j) (t + ((i : ℝ) / m) * dt) := by
  conv_lhs => rw [graggStage]
  rw [graggPts_leap, leap_eq _ _ _ i i le_rfl]
  congr 1
  · congr 1
    rw [Finset.smul_sum, Finset.smul_sum]
    refine Finset.sum_congr rfl fun j _ => ?_
    rw [smul_smul, smul_smul]
    congr 1
    ring
  · ring

end

theorem alpha_sum (i : ℕ) : ∑ j ∈ range i, alpha i j = i := by
  have h := leap_eq (0 : ℝ) 1 (fun _ => (1 : ℝ)) i i le_rfl
  have e : ∀ n, leap (0 : ℝ) 1 (fun _ => (1 : ℝ)) n = n ∧ leap (0 : ℝ) 1 (fun _ => (1 : ℝ)) (n + 1) = (n + 1 : ℕ) := by
    intro n
    induction n with
    | zero => simp [leap]
    | succ n ih =>
      refine ⟨ih.2, ?_⟩
      simp only [leap, ih.1]
      push_cast
      simp
      ring
  rw [(e i).1] at h
  simp only [zero_add, smul_eq_mul, mul_one, one_mul] at h
  exact h.symm

/-- the weights of the stages, multiplied by powers of `m` -/
def phi : PTree Unit → ℕ → ℝ
  | .leaf _, _ => 1
  | .graft a r, i => leap (0 : ℝ) 1 (phi a) i * phi r i

theorem phi_stageWeight (m : ℕ) (hm : 1 ≤ m) (τ : PTree Unit) :
    ∀ i, stageWeight (fun i j => alpha i j / m) (fun _ => ()) τ i = phi τ i / (m : ℝ) ^ (τ.size - 1) := by
  have h0 : (m : ℝ) ≠ 0 := by exact_mod_cast (by omega : m ≠ 0)
  induction τ with
  | leaf c => intro i; simp [stageWeight, phi, PTree.size]
  | graft a r ha hr =>
    intro i
    have h1 := a.size_pos
    have h2 := r.size_pos
    simp only [stageWeight, phi, PTree.size, hr i, ha]
    rw [leap_eq _ _ _ i i le_rfl]
    rw [show a.size + r.size - 1 = (a.size - 1) + 1 + (r.size - 1) by omega, pow_add, pow_succ]
    have e : ∑ j ∈ range i, alpha i j / (m : ℝ) * (phi a j / (m : ℝ) ^ (a.size - 1)) =
        (∑ j ∈ range i, alpha i j • phi a j) / ((m : ℝ) ^ (a.size - 1) * m) := by
      rw [Finset.sum_div]
      refine Finset.sum_congr rfl fun j _ => ?_
      simp only [smul_eq_mul]
      field_simp
    rw [e]
    simp only [zero_add, one_smul]
    field_simp

/-- the elementary weight of the result -/
theorem graggB_weight (m : ℕ) (hm : 1 ≤ m) (τ : PTree Unit) :
    ∑ i ∈ range (m + 1), graggB m i * stageWeight (fun i j => alpha i j / m) (fun _ => ()) τ i =
      (leap (0 : ℝ) 1 (phi τ) (m - 1) + leap (0 : ℝ) 1 (phi τ) m + phi τ m) / 2 / (m : ℝ) ^ τ.size := by
  have h0 : (m : ℝ) ≠ 0 := by exact_mod_cast (by omega : m ≠ 0)
  have h1 := τ.size_pos
  rw [leap_eq _ _ _ (m - 1) (m + 1) (by omega), leap_eq _ _ _ m (m + 1) (by omega)]
  have e3 : ∑ i ∈ range (m + 1), (if i = m then (1 : ℝ) else 0) * phi τ i = phi τ m := by
    simp only [ite_mul, one_mul, zero_mul, Finset.sum_ite_eq']
    rw [if_pos (by simp)]
  rw [← e3]
  simp only [zero_add, one_mul, smul_eq_mul]
  rw [← Finset.sum_add_distrib, ← Finset.sum_add_distrib, Finset.sum_div, Finset.sum_div]
  refine Finset.sum_congr rfl fun i _ => ?_
  rw [phi_stageWeight m hm, graggB]
  obtain ⟨s, hs⟩ : ∃ s, τ.size = s + 1 := ⟨τ.size - 1, by omega⟩
  rw [hs, Nat.add_sub_cancel, pow_succ]
  field_simp

/-- Gragg's scheme has order 2 for every number of sub-steps -/
theorem gragg_conditions (m : ℕ) (hm : 1 ≤ m) : OrderConditions (fun i j => alpha i j / m) (graggB m) (m + 1) 2 := by
  have h0 : (m : ℝ) ≠ 0 := by exact_mod_cast (by omega : m ≠ 0)
  have h1 : ∀ n, leap (0 : ℝ) 1 (fun _ => (1 : ℝ)) n = n := by
    intro n
    rw [leap_eq _ _ _ n n le_rfl]
    simp only [smul_eq_mul, mul_one, alpha_sum]
    simp
  have h2 : ∀ n, leap (0 : ℝ) 1 (fun i => (i : ℝ)) n + leap (0 : ℝ) 1 (fun i => (i : ℝ)) (n + 1) = n * (n + 1) := by
    intro n
    induction n with
    | zero => simp [leap]
    | succ n ih =>
      simp only [leap] at ih ⊢
      push_cast at ih ⊢
      simp only [smul_eq_mul]
      linear_combination ih
  intro τ hτ
  rw [graggB_weight m hm]
  match τ, hτ with
  | .leaf c, _ =>
    have e : phi (.leaf c) = fun _ => (1 : ℝ) := by funext i; rfl
    rw [e, h1, h1]
    simp only [PTree.size, exactWeight]
    rw [Nat.cast_sub hm]
    push_cast
    field_simp
    ring
  | .graft (.leaf a) (.leaf b), _ =>
    have e : phi (.graft (.leaf a) (.leaf b)) = fun i : ℕ => (i : ℝ) := by
      funext i
      simp only [phi]
      rw [h1, mul_one]
    rw [e]
    obtain ⟨n, rfl⟩ : ∃ n, m = n + 1 := ⟨m - 1, by omega⟩
    rw [Nat.add_sub_cancel, h2]
    simp only [PTree.size, exactWeight]
    push_cast at h0 ⊢
    field_simp
  | .graft (.graft a b) r, h =>
    have := a.size_pos; have := b.size_pos; have := r.size_pos
    simp only [PTree.size] at h
    omega
  | .graft a (.graft b r), h =>
    have := a.size_pos; have := b.size_pos; have := r.size_pos
    simp only [PTree.size] at h
    omega

end Verif.BSeries
