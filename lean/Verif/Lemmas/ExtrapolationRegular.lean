import Verif.Lemmas.RkBounded
import Verif.Props.ExtrapolationOrder

/-! # The extrapolated midpoint rule as a Runge-Kutta formula -/

namespace Verif
open Finset BSeries

variable {V W : Type} [NormedAddCommGroup V] [NormedSpace ℝ V]

/-- An affine combination of two Runge-Kutta formulas is one. -/
theorem IsRk.affine {f : V → ℝ → V} {Φ Ψ : V → ℝ → ℝ → V} (hΦ : IsRk f Φ) (hΨ : IsRk f Ψ) {a b : ℝ} (hab : a + b = 1) :
    IsRk f fun x t h => a • Φ x t h + b • Ψ x t h := by
  obtain ⟨n, A, c, β, k, hk, hΦ⟩ := hΦ
  obtain ⟨n', A', c', β', k', hk', hΨ⟩ := hΨ
  refine ⟨n + n', fun i j => if i < n then A i j else if j < n then 0 else A' (i - n) (j - n), fun i => if i < n then c i else c' (i - n),
    fun i => if i < n then a * β i else b * β' (i - n), fun x t h i => if i < n then k x t h i else k' x t h (i - n), ?_, ?_⟩
  · intro x t h i hi
    by_cases hlt : i < n
    · simp only [if_pos hlt]
      rw [hk x t h i hlt]
      congr 3
      refine sum_congr rfl fun j hj => ?_
      rw [if_pos ((mem_range.1 hj).trans hlt)]
    · obtain ⟨m, rfl⟩ := Nat.exists_eq_add_of_le (not_lt.1 hlt)
      simp only [if_neg hlt, Nat.add_sub_cancel_left]
      rw [hk' x t h m (by omega), sum_range_add]
      congr 3
      have h1 : ∀ j ∈ range n, (if j < n then (0 : ℝ) else A' m (j - n)) • (if j < n then k x t h j else k' x t h (j - n)) = 0 := by
        intro j hj
        rw [if_pos (mem_range.1 hj), zero_smul]
      rw [sum_congr rfl h1, sum_const_zero, zero_add]
      refine sum_congr rfl fun j _ => ?_
      rw [if_neg (by omega), if_neg (by omega), Nat.add_sub_cancel_left]
  · intro x t h
    dsimp only
    rw [hΦ, hΨ, sum_range_add]
    have h1 : ∀ j ∈ range n, (if j < n then a * β j else b * β' (j - n)) • (if j < n then k x t h j else k' x t h (j - n)) = a • β j • k x t h j := by
      intro j hj
      rw [if_pos (mem_range.1 hj), if_pos (mem_range.1 hj), mul_smul]
    have h2 : ∀ j ∈ range n', (if n + j < n then a * β (n + j) else b * β' (n + j - n)) • (if n + j < n then k x t h (n + j) else k' x t h (n + j - n)) =
        b • β' j • k' x t h j := by
      intro j hj
      rw [if_neg (by omega), if_neg (by omega), Nat.add_sub_cancel_left, mul_smul]
    rw [sum_congr rfl h1, sum_congr rfl h2, ← smul_sum, ← smul_sum, smul_add, smul_add, smul_add, smul_comm a h, smul_comm b h]
    rw [show a • x + h • a • (∑ i ∈ range n, β i • k x t h i) + (b • x + h • b • ∑ i ∈ range n', β' i • k' x t h i) =
      (a • x + b • x) + (h • a • (∑ i ∈ range n, β i • k x t h i) + h • b • ∑ i ∈ range n', β' i • k' x t h i) by abel, ← add_smul, hab, one_smul]

theorem neville_isRk {f : V → ℝ → V} (c : ℕ → ℕ → ℝ) {Y : ℕ → V → ℝ → ℝ → V} (hY : ∀ i, IsRk f (Y i)) : ∀ d k,
    IsRk f fun x t h => neville c (fun i => Y i x t h) d k
  | 0, k => hY k
  | d + 1, k => by
    have := (neville_isRk c hY d k).affine (neville_isRk c hY d (k - 1)) (a := lit 1 + c k (k - (d + 1))) (b := -c k (k - (d + 1))) (by simp [lit])
    simpa only [neville, lin_pair] using this

theorem graggValue_isRk (f : V → ℝ → V) (m : ℕ) (hm : 1 ≤ m) : IsRk f fun x t h => graggValue f m x t h :=
  ⟨m + 1, fun i j => alpha i j / m, fun i => (i : ℝ) / m, graggB m, fun x t h i => graggStage f x t (h / m) i,
    fun x t h i _ => graggStage_rk f m hm x t h i, fun x t h => graggValue_rk f m hm x t h⟩

/-- the extrapolated midpoint rule, from the results with `2 (k-d+1) , ... , 2 (k+1)` intervals -/
noncomputable def extrapolated (f : V → ℝ → V) (d k : ℕ) (x : V) (t h : ℝ) : V :=
  neville (exCoeff (K := ℝ)) (fun i => graggValue f (interval i) x t h) d k

theorem extrapolated_isRk (f : V → ℝ → V) (d k : ℕ) : IsRk f (extrapolated f d k) :=
  neville_isRk _ (fun i => graggValue_isRk f (interval i) (by unfold interval; omega)) d k

theorem IsRk.growth {f : V → ℝ → V} {n : ℕ} (hf : GoodRhs f n) {Φ : V → ℝ → ℝ → V} (hΦ : IsRk f Φ) (a b B : ℝ) :
    ∃ C, 0 ≤ C ∧ ∀ x, ∀ t ∈ Set.Icc a b, ∀ h, |h| ≤ B → ‖Φ x t h - x‖ ≤ C * |h| * (1 + ‖x‖) := by
  obtain ⟨m, A, c, β, k, h1, h2⟩ := hΦ
  have : IsRkErr f Φ fun x t h => h • ∑ i ∈ range m, β i • k x t h i := ⟨m, A, c, β, β, k, h1, h2, fun _ _ _ => rfl⟩
  obtain ⟨C, hC, H⟩ := this.growth hf a b B
  exact ⟨C, hC, fun x t ht h hh => (H x t ht h hh).1⟩

/-- A result and the difference of it to another one. -/
theorem growth_sub {f : V → ℝ → V} {n : ℕ} (hf : GoodRhs f n) {Φ Ψ : V → ℝ → ℝ → V} (hΦ : IsRk f Φ) (hΨ : IsRk f Ψ) (a b B : ℝ) :
    ∃ C, 0 ≤ C ∧ ∀ x, ∀ t ∈ Set.Icc a b, ∀ h, |h| ≤ B → ‖Φ x t h - x‖ ≤ C * |h| * (1 + ‖x‖) ∧ ‖Φ x t h - Ψ x t h‖ ≤ C * |h| * (1 + ‖x‖) := by
  obtain ⟨C, hC, H⟩ := hΦ.growth hf a b B
  obtain ⟨D, hD, H'⟩ := hΨ.growth hf a b B
  refine ⟨C + D, add_nonneg hC hD, fun x t ht h hh => ?_⟩
  have h1 := H x t ht h hh
  have h2 := H' x t ht h hh
  have h3 : 0 ≤ D * |h| * (1 + ‖x‖) := by positivity
  refine ⟨by linarith, ?_⟩
  have := norm_sub_le (Φ x t h - x) (Ψ x t h - x)
  rw [sub_sub_sub_cancel_right] at this
  linarith

end Verif
