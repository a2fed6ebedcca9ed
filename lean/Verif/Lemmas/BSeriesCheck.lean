import Verif.Lemmas.BSeriesOrder
import Mathlib.Tactic.LinearCombination
import Mathlib.Tactic.FieldSimp

/-!
# Checking order conditions by evaluation

All planar trees with at most `p` nodes are enumerated together with their elementary weights, scaled to integers; `conditions_of_check`
derives the order conditions for all trees with at most `p` nodes from a successful check.
-/

set_option linter.unusedSectionVars false

namespace Verif.BSeries
open Finset

/-- the trees with a given number of nodes: scaled elementary weights and the inverse of the exact weight -/
abbrev Level := List (List ℤ × ℤ)

/-- sum of products -/
def dotZ (r v : List ℤ) : ℤ := (List.zipWith (· * ·) r v).foldr (· + ·) 0

/-- the trees with `q + 2` nodes -/
def nextLevel (rows : List (List ℤ)) (lv : List Level) (q : ℕ) : Level :=
  (List.range (q + 1)).flatMap fun s => (lv.getD s []).flatMap fun a =>
    (lv.getD (q - s) []).map fun r => (List.zipWith (· * ·) (rows.map fun row => dotZ row a.1) r.1, a.2 * (s + 1) * r.2)

/-- the trees with `1, ..., q + 1` nodes -/
def levels (rows leafs : List (List ℤ)) : ℕ → List Level
  | 0 => [leafs.map fun v => (v, 1)]
  | q + 1 => levels rows leafs q ++ [nextLevel rows (levels rows leafs q) q]

/-- the order conditions with right-hand sides `rhs` for all trees with at most `p` nodes -/
def checkConditions (rows leafs : List (List ℤ)) (b : List ℤ) (D Db : ℤ) (rhs : ℕ → ℤ) (p : ℕ) : Bool :=
  (List.range p).all fun q => ((levels rows leafs (p - 1)).getD q []).all fun a =>
    dotZ b a.1 * (q + 1) * a.2 == rhs (q + 1) * (Db * D ^ q)

theorem dotZ_eq (r : List ℤ) : ∀ v : List ℤ, r.length ≤ v.length →
    dotZ r v = ∑ j ∈ range r.length, r.getD j 0 * v.getD j 0 := by
  induction r with
  | nil => intro v _; simp [dotZ]
  | cons x r ih =>
    intro v hv
    cases v with
    | nil => simp at hv
    | cons y v =>
      have := ih v (by simpa using hv)
      rw [List.length_cons, Finset.sum_range_succ']
      simp only [List.getD_cons_succ, List.getD_cons_zero]
      rw [← this, dotZ, dotZ, List.zipWith_cons_cons, List.foldr_cons, add_comm]

theorem levels_length (rows leafs : List (List ℤ)) (Q : ℕ) : (levels rows leafs Q).length = Q + 1 := by
  induction Q with
  | zero => rfl
  | succ Q ih => rw [levels, List.length_append, ih]; rfl

theorem levels_getD (rows leafs : List (List ℤ)) {q Q : ℕ} (h : q ≤ Q) :
    (levels rows leafs Q).getD q [] = (levels rows leafs q).getD q [] := by
  induction Q with
  | zero => rw [Nat.le_zero.1 h]
  | succ Q ih =>
    rcases Nat.lt_or_ge q (Q + 1) with h1 | h1
    · rw [levels, List.getD_append _ _ _ _ (by rw [levels_length]; omega), ih (by omega)]
    · rw [show q = Q + 1 by omega]

theorem levels_last (rows leafs : List (List ℤ)) (q : ℕ) :
    (levels rows leafs (q + 1)).getD (q + 1) [] = nextLevel rows (levels rows leafs q) q := by
  rw [levels, List.getD_append_right _ _ _ _ (by rw [levels_length]), levels_length, Nat.sub_self]
  rfl

section
variable {ι : Type} [DecidableEq ι] {A : ℕ → ℕ → ℝ} {col : ℕ → ι} {n : ℕ} {rows leafs : List (List ℤ)} {D : ℤ}

theorem mem_levels (hrows : rows.length = n) (hlen : ∀ i, i < n → (rows.getD i []).length = i)
    (hA : ∀ i, i < n → ∀ j, j < i → ((rows.getD i []).getD j 0 : ℝ) = D * A i j)
    (hleaf : ∀ c : ι, ∃ v ∈ leafs, v.length = n ∧ ∀ i, i < n → v.getD i 0 = if c = col i then 1 else 0) (τ : PTree ι) :
    ∃ a ∈ (levels rows leafs (τ.size - 1)).getD (τ.size - 1) [], a.1.length = n ∧
      (∀ i, i < n → (a.1.getD i 0 : ℝ) = D ^ (τ.size - 1) * stageWeight A col τ i) ∧ (a.2 : ℝ) * exactWeight τ = 1 := by
  induction τ with
  | leaf c =>
    obtain ⟨v, hv, h1, h2⟩ := hleaf c
    refine ⟨(v, 1), ?_, h1, fun i hi => ?_, by simp [exactWeight]⟩
    · simp only [PTree.size, Nat.sub_self, levels, List.getD_cons_zero]
      exact List.mem_map.2 ⟨v, hv, rfl⟩
    · simp only [PTree.size, Nat.sub_self, pow_zero, one_mul, stageWeight]
      rw [h2 i hi]
      split <;> simp
  | graft a r iha ihr =>
    obtain ⟨x, hx, x1, x2, x3⟩ := iha
    obtain ⟨y, hy, y1, y2, y3⟩ := ihr
    have pa := a.size_pos
    have pr := r.size_pos
    obtain ⟨s, hs⟩ : ∃ s, a.size = s + 1 := ⟨a.size - 1, by omega⟩
    obtain ⟨u, hu⟩ : ∃ u, r.size = u + 1 := ⟨r.size - 1, by omega⟩
    have hsz : (PTree.graft a r).size - 1 = s + u + 1 := by simp only [PTree.size]; omega
    rw [hs, Nat.add_sub_cancel] at hx x2
    rw [hu, Nat.add_sub_cancel] at hy y2
    rw [hsz]
    refine ⟨(List.zipWith (· * ·) (rows.map fun row => dotZ row x.1) y.1, x.2 * (s + 1) * y.2), ?_, ?_, fun i hi => ?_, ?_⟩
    · rw [levels_last]
      unfold nextLevel
      refine List.mem_flatMap.2 ⟨s, List.mem_range.2 (by omega), List.mem_flatMap.2 ⟨x, ?_, List.mem_map.2 ⟨y, ?_, rfl⟩⟩⟩
      · rw [levels_getD rows leafs (by omega : s ≤ s + u)]; exact hx
      · rw [Nat.add_sub_cancel_left, levels_getD rows leafs (by omega : u ≤ s + u)]; exact hy
    · simp [hrows, y1]
    · have e1 : (List.zipWith (· * ·) (rows.map fun row => dotZ row x.1) y.1).getD i 0 = dotZ (rows.getD i []) x.1 * y.1.getD i 0 := by
        rw [List.getD_eq_getElem _ _ (by simp [hrows, y1, hi]), List.getElem_zipWith, List.getElem_map,
          List.getD_eq_getElem rows _ (by omega), List.getD_eq_getElem y.1 _ (by omega)]
      simp only []
      rw [e1, dotZ_eq _ _ (by rw [hlen i hi, x1]; omega), hlen i hi]
      push_cast
      rw [y2 i hi]
      have e2 : ∑ j ∈ range i, ((rows.getD i []).getD j 0 : ℝ) * (x.1.getD j 0 : ℝ) =
          D ^ (s + 1) * ∑ j ∈ range i, A i j * stageWeight A col a j := by
        rw [Finset.mul_sum]
        refine Finset.sum_congr rfl fun j hj => ?_
        have hj' := Finset.mem_range.1 hj
        rw [hA i hi j hj', x2 j (by omega)]
        ring
      rw [e2, stageWeight]
      ring
    · simp only [exactWeight, hs]
      push_cast
      have : (s : ℝ) + 1 ≠ 0 := by positivity
      field_simp
      linear_combination (y.2 : ℝ) * exactWeight r * x3 + y3

theorem conditions_of_check (hrows : rows.length = n) (hlen : ∀ i, i < n → (rows.getD i []).length = i)
    (hA : ∀ i, i < n → ∀ j, j < i → ((rows.getD i []).getD j 0 : ℝ) = D * A i j)
    (hleaf : ∀ c : ι, ∃ v ∈ leafs, v.length = n ∧ ∀ i, i < n → v.getD i 0 = if c = col i then 1 else 0)
    {b : List ℤ} {br : ℕ → ℝ} {Db : ℤ} (hblen : b.length = n) (hb : ∀ i, i < n → (b.getD i 0 : ℝ) = Db * br i)
    (hD : D ≠ 0) (hDb : Db ≠ 0) {rhs : ℕ → ℤ} {p : ℕ} (h : checkConditions rows leafs b D Db rhs p = true) :
    ∀ τ : PTree ι, τ.size ≤ p → ∑ i ∈ range n, br i * stageWeight A col τ i = rhs τ.size * (exactWeight τ / (τ.size : ℝ)) := by
  intro τ hτ
  have pos := τ.size_pos
  obtain ⟨q, hq⟩ : ∃ q, τ.size = q + 1 := ⟨τ.size - 1, by omega⟩
  obtain ⟨a, ha, h1, h2, h3⟩ := mem_levels hrows hlen hA hleaf τ
  rw [hq, Nat.add_sub_cancel] at ha h2
  have h4 := List.all_eq_true.1 h q (List.mem_range.2 (by omega))
  have h5 := List.all_eq_true.1 h4 a (by rw [levels_getD rows leafs (by omega : q ≤ p - 1)]; exact ha)
  have h6 := eq_of_beq h5
  rw [dotZ_eq _ _ (by rw [hblen, h1]), hblen] at h6
  have h7 : (∑ j ∈ range n, (b.getD j 0 : ℝ) * (a.1.getD j 0 : ℝ)) * (q + 1) * a.2 = rhs (q + 1) * (Db * (D : ℝ) ^ q) := by
    exact_mod_cast h6
  have e : ∑ j ∈ range n, (b.getD j 0 : ℝ) * (a.1.getD j 0 : ℝ) = Db * (D : ℝ) ^ q * ∑ i ∈ range n, br i * stageWeight A col τ i := by
    rw [Finset.mul_sum]
    refine Finset.sum_congr rfl fun j hj => ?_
    have hj' := Finset.mem_range.1 hj
    rw [hb j hj', h2 j hj']
    ring
  rw [e] at h7
  rw [hq]
  have hD' : (Db : ℝ) * (D : ℝ) ^ q ≠ 0 := mul_ne_zero (by exact_mod_cast hDb) (pow_ne_zero _ (by exact_mod_cast hD))
  have hq0 : (q : ℝ) + 1 ≠ 0 := by positivity
  have ha0 : (a.2 : ℝ) ≠ 0 := by
    intro h0
    rw [h0, zero_mul] at h3
    exact zero_ne_one h3
  have h8 : (∑ i ∈ range n, br i * stageWeight A col τ i) * (q + 1) * a.2 = rhs (q + 1) := by
    apply mul_left_cancel₀ hD'
    linear_combination h7
  push_cast
  rw [mul_div_assoc', eq_div_iff hq0]
  apply mul_right_cancel₀ ha0
  linear_combination h8 - (rhs (q + 1) : ℝ) * h3

end

end Verif.BSeries
