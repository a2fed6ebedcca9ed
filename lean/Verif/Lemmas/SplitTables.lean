import Verif.Lemmas.SplitOrder
import Mathlib.Topology.Order.IntermediateValue
import Mathlib.Tactic.LinearCombination
import Mathlib.Tactic.NormNum
import Mathlib.Tactic.FinCases

/-! # The order conditions of splitting methods with two parts, up to order 4 -/

namespace Verif.BSeries

/-- a tree with two nodes -/
def tree2 (c : Bool) : PTree Bool := .graft (.leaf !c) (.leaf c)
/-- the trees with three nodes: a chain and a fork -/
def tree3 (c : Bool) : List (PTree Bool) := [.graft (tree2 !c) (.leaf c), .graft (.leaf !c) (tree2 c)]
/-- the trees with four nodes -/
def tree4 (c : Bool) : List (PTree Bool) :=
  (tree3 !c).map (.graft · (.leaf c)) ++ [.graft (tree2 !c) (tree2 c)] ++ (tree3 c).map (.graft (.leaf !c))

theorem size1_eq {τ : PTree Bool} (h : τ.size = 1) : τ = .leaf τ.root := by
  cases τ with
  | leaf c => rfl
  | graft a r =>
    have := a.size_pos
    have := r.size_pos
    simp only [PTree.size] at h
    omega

theorem ne_bool {a b : Bool} (h : a ≠ b) : a = !b := by revert h; cases a <;> cases b <;> simp

theorem size2_eq {τ : PTree Bool} (ha : τ.Alternating) (h : τ.size = 2) : τ = tree2 τ.root := by
  cases τ with
  | leaf c => simp [PTree.size] at h
  | graft a r =>
    have h1 := a.size_pos
    have h2 := r.size_pos
    simp only [PTree.size] at h
    obtain ⟨-, -, a3⟩ := ha
    have e1 := size1_eq (τ := a) (by omega)
    have e2 := size1_eq (τ := r) (by omega)
    rw [ne_bool a3] at e1
    conv_lhs => rw [e1, e2]
    rfl

theorem size3_eq {τ : PTree Bool} (ha : τ.Alternating) (h : τ.size = 3) : τ ∈ tree3 τ.root := by
  cases τ with
  | leaf c => simp [PTree.size] at h
  | graft a r =>
    have h1 := a.size_pos
    have h2 := r.size_pos
    simp only [PTree.size] at h
    obtain ⟨a1, a2, a3⟩ := ha
    have hc : a.size = 2 ∧ r.size = 1 ∨ a.size = 1 ∧ r.size = 2 := by omega
    rcases hc with ⟨s1, s2⟩ | ⟨s1, s2⟩
    · have e1 := size2_eq a1 s1
      have e2 := size1_eq s2
      rw [ne_bool a3] at e1
      have : PTree.graft a r = .graft (tree2 !r.root) (.leaf r.root) := by rw [← e1, ← e2]
      rw [this]
      simp [tree3, PTree.root]
    · have e1 := size1_eq s1
      have e2 := size2_eq a2 s2
      rw [ne_bool a3] at e1
      have : PTree.graft a r = .graft (.leaf !r.root) (tree2 r.root) := by rw [← e1, ← e2]
      rw [this]
      simp [tree3, PTree.root, tree2]

theorem size4_eq {τ : PTree Bool} (ha : τ.Alternating) (h : τ.size = 4) : τ ∈ tree4 τ.root := by
  cases τ with
  | leaf c => simp [PTree.size] at h
  | graft a r =>
    have h1 := a.size_pos
    have h2 := r.size_pos
    simp only [PTree.size] at h
    obtain ⟨a1, a2, a3⟩ := ha
    have hc : a.size = 3 ∧ r.size = 1 ∨ a.size = 2 ∧ r.size = 2 ∨ a.size = 1 ∧ r.size = 3 := by omega
    show _ ∈ tree4 r.root
    unfold tree4
    rcases hc with ⟨s1, s2⟩ | ⟨s1, s2⟩ | ⟨s1, s2⟩
    · have e1 := size3_eq a1 s1
      have e2 := size1_eq s2
      rw [ne_bool a3] at e1
      refine List.mem_append_left _ (List.mem_append_left _ (List.mem_map.2 ⟨a, e1, ?_⟩))
      rw [← e2]
    · have e1 := size2_eq a1 s1
      have e2 := size2_eq a2 s2
      rw [ne_bool a3] at e1
      refine List.mem_append_left _ (List.mem_append_right _ (List.mem_singleton.2 ?_))
      rw [← e1, ← e2]
    · have e1 := size1_eq s1
      have e2 := size3_eq a2 s2
      rw [ne_bool a3] at e1
      refine List.mem_append_right _ (List.mem_map.2 ⟨r, e2, ?_⟩)
      rw [← e1]

/-- The order conditions one by one. -/
theorem splitConditions_of {L : List (Bool × ℝ)} {p : ℕ} (hp : p ≤ 4) (h1 : ∀ c, totalWeight L (.leaf c) = 1)
    (h2 : 2 ≤ p → ∀ c, totalWeight L (tree2 c) = 1 / 2)
    (h3 : 3 ≤ p → ∀ c, ∀ τ ∈ tree3 c, totalWeight L τ = exactWeight τ / 3)
    (h4 : 4 ≤ p → ∀ c, ∀ τ ∈ tree4 c, totalWeight L τ = exactWeight τ / 4) : SplitConditions L p := by
  intro τ ha hs
  have := τ.size_pos
  have hc : τ.size = 1 ∨ τ.size = 2 ∨ τ.size = 3 ∨ τ.size = 4 := by omega
  rcases hc with h | h | h | h
  · rw [size1_eq h, h1]
    simp [exactWeight, PTree.size]
  · rw [size2_eq ha h, h2 (by omega)]
    simp [exactWeight, PTree.size, tree2]
  · rw [h, h3 (by omega) _ _ (size3_eq ha h)]
    norm_num
  · rw [h, h4 (by omega) _ _ (size4_eq ha h)]
    norm_num

/-- the sub-steps of a symplectic stepper: drifts (`false`) and kicks (`true`) in turn -/
def subSteps (coef : List (ℝ × ℝ)) : List (Bool × ℝ) := coef.flatMap fun c => [(false, c.1), (true, c.2)]

/-- the coefficients of `symplectic_rkn_sb3a_m4_mclachlan`, `z` being the square root in them -/
theorem m4_conditions {z : ℝ} (hz : z ^ 2 = 7 / 72) :
    SplitConditions (subSteps [(1 / 2 - z, 1), (-1 / 3 + z, -1 / 2), (2 / 3, -1 / 2), (-1 / 3 + z, 1), (1 / 2 - z, 0)]) 4 := by
  have hz3 : z ^ 3 = 7 / 72 * z := by rw [pow_succ, hz]
  have hz4 : z ^ 4 = 49 / 5184 := by rw [show z ^ 4 = z ^ 2 * z ^ 2 by ring, hz]; norm_num
  refine splitConditions_of le_rfl ?_ ?_ ?_ ?_
  · intro c
    cases c <;> simp [totalWeight, subSteps, stepSum, stepWeight] <;> ring
  · intro _ c
    cases c <;> simp [totalWeight, subSteps, stepSum, stepWeight, tree2] <;> ring_nf
  · intro _ c τ hτ
    simp only [tree3, List.mem_cons, List.not_mem_nil, or_false] at hτ
    rcases hτ with rfl | rfl <;> cases c <;> simp [totalWeight, subSteps, stepSum, stepWeight, tree2, exactWeight, PTree.size] <;> ring_nf <;>
      simp only [hz, hz3, hz4] <;> ring
  · intro _ c τ hτ
    simp only [tree4, tree3, List.map_cons, List.map_nil, List.cons_append, List.nil_append, List.mem_cons, List.not_mem_nil, or_false] at hτ
    rcases hτ with rfl | rfl | rfl | rfl | rfl <;> cases c <;> simp [totalWeight, subSteps, stepSum, stepWeight, tree2, exactWeight, PTree.size] <;>
      ring_nf <;> simp only [hz, hz3, hz4] <;> ring

/-- The coefficients of `symplectic_rkn_sb3a_mclachlan` as functions of the first two of the numbers `a`. -/
noncomputable def sb3aOf (a0 a1 : ℝ) : List (ℝ × ℝ) :=
  [(a0, -3 / 73), (a1, 17 / 59), (1 / 2 - (a0 + a1), 1 - 2 * (-3 / 73 + 17 / 59)), (1 / 2 - (a0 + a1), 17 / 59), (a1, -3 / 73), (a0, 0)]

/-- they make a method of second order, -/
theorem sb3aOf_conditions (a0 a1 : ℝ) : SplitConditions (subSteps (sb3aOf a0 a1)) 2 := by
  refine splitConditions_of (by norm_num) ?_ ?_ (by omega) (by omega)
  · intro c
    cases c <;> simp [totalWeight, subSteps, stepSum, stepWeight, sb3aOf] <;> ring
  · intro _ c
    cases c <;> simp [totalWeight, subSteps, stepSum, stepWeight, tree2, sb3aOf] <;> ring

/-- and of fourth order if two equations hold. -/
theorem sb3aOf_conditions4 {a0 a1 : ℝ} (h1 : 2128 / 4307 * a0 ^ 2 + 68 / 59 * a0 * a1 + 34 / 59 * a1 ^ 2 + 2077 / 51684 - 2128 / 4307 * a0 - 34 / 59 * a1 = 0)
    (h2 : 116280 / 254113 * a1 + 6901104 / 18550249 * a0 - 2153063 / 111301494 = 0) : SplitConditions (subSteps (sb3aOf a0 a1)) 4 := by
  refine splitConditions_of le_rfl ?_ ?_ ?_ ?_
  · intro c
    cases c <;> simp [totalWeight, subSteps, stepSum, stepWeight, sb3aOf] <;> ring
  · intro _ c
    cases c <;> simp [totalWeight, subSteps, stepSum, stepWeight, tree2, sb3aOf] <;> ring
  · intro _ c τ hτ
    simp only [tree3, List.mem_cons, List.not_mem_nil, or_false] at hτ
    rcases hτ with rfl | rfl <;> cases c <;> simp [totalWeight, subSteps, stepSum, stepWeight, tree2, exactWeight, PTree.size, sb3aOf]
    · linear_combination -h1
    · linear_combination -h2
    · linear_combination h2
    · linear_combination h1
  · intro _ c τ hτ
    simp only [tree4, tree3, List.map_cons, List.map_nil, List.cons_append, List.nil_append, List.mem_cons, List.not_mem_nil, or_false] at hτ
    rcases hτ with rfl | rfl | rfl | rfl | rfl <;> cases c <;>
      simp [totalWeight, subSteps, stepSum, stepWeight, tree2, exactWeight, PTree.size, sb3aOf]
    · linear_combination -1 / 2 * h1 - 1 / 2 * h2
    · linear_combination -1 / 2 * h1 - 1 / 2 * h2
    · linear_combination -1 / 2 * h1
    · linear_combination -1 / 2 * h2
    · linear_combination -1 / 2 * h1 + 1 / 2 * h2
    · linear_combination 1 / 2 * h1 - 1 / 2 * h2
    · linear_combination -1 / 2 * h1 + 1 / 2 * h2
    · linear_combination 1 / 2 * h1 - 1 / 2 * h2
    · linear_combination 3 / 2 * h2
    · linear_combination 3 / 2 * h1

/-- Within `10^-20` of the decimals in the code there are coefficients of a method of fourth order. -/
theorem sb3a_near : ∃ a0 a1 : ℝ, |a0 - 40518861839525227722 / 100000000000000000000| ≤ 1 / 10 ^ 20 ∧
    |a1 - -28714404081652408900 / 100000000000000000000| ≤ 1 / 10 ^ 20 ∧ SplitConditions (subSteps (sb3aOf a0 a1)) 4 := by
  set d : ℝ := 40518861839525227722 / 100000000000000000000 with hd
  set a : ℝ → ℝ := fun x => (2153063 / 111301494 - 6901104 / 18550249 * x) * (254113 / 116280) with ha
  set g : ℝ → ℝ := fun x => 2128 / 4307 * x ^ 2 + 68 / 59 * x * a x + 34 / 59 * a x ^ 2 + 2077 / 51684 - 2128 / 4307 * x - 34 / 59 * a x with hg
  have hc : ContinuousOn g (Set.Icc d (d + 1 / 10 ^ 21)) := by
    have : Continuous g := by simp only [hg, ha]; fun_prop
    exact this.continuousOn
  have h0 : 0 ∈ Set.Icc (g (d + 1 / 10 ^ 21)) (g d) := by
    constructor <;> simp only [hg, ha, hd] <;> norm_num
  obtain ⟨x, ⟨hx1, hx2⟩, hx⟩ := intermediate_value_Icc' (by norm_num) hc h0
  refine ⟨x, a x, ?_, ?_, sb3aOf_conditions4 hx ?_⟩
  · rw [abs_le]
    constructor <;> norm_num at hx1 hx2 ⊢ <;> linarith
  · simp only [ha, hd] at hx1 hx2 ⊢
    rw [abs_le]
    constructor <;> norm_num at hx1 hx2 ⊢ <;> linarith
  · simp only [ha]
    ring

theorem euler_conditions : SplitConditions (subSteps [(1, 1)]) 1 := by
  refine splitConditions_of (by norm_num) ?_ (by omega) (by omega) (by omega)
  intro c
  cases c <;> simp [totalWeight, subSteps, stepSum, stepWeight]

end Verif.BSeries
