import Verif.Lemmas.AdamsIntegral

/-!
# The table of modified divided differences
-/

namespace Verif
open Polynomial Finset
variable {V : Type} [AddCommGroup V] [Module ℝ V]

/-- `∏_{j<i} (τ_0 - τ_{j+1})` -/
noncomputable def tableDen (τ : ℕ → ℝ) (i : ℕ) : ℝ := ∏ j ∈ range i, (τ 0 - τ (j + 1))

/-- the first `v` entries of a table of modified divided differences of the points `( τ_j , F_j )` -/
def TableValid (τ : ℕ → ℝ) (F : ℕ → V) (v : ℕ) (φ : ℕ → V) : Prop :=
  ∀ m < v, ∑ i ∈ range (m + 1), (newton τ i (τ m) / tableDen τ i) • φ i = F m

/-- `β_i` -/
noncomputable def adamsBeta (τ : ℕ → ℝ) (t' : ℝ) (i : ℕ) : ℝ := newton τ i t' / tableDen τ i

theorem tableDen_zero (τ : ℕ → ℝ) : tableDen τ 0 = 1 := by simp [tableDen]
theorem tableDen_succ (τ : ℕ → ℝ) (i : ℕ) : tableDen τ (i + 1) = tableDen τ i * (τ 0 - τ (i + 1)) := by simp [tableDen, prod_range_succ]

theorem adamsBeta_zero (τ : ℕ → ℝ) (t' : ℝ) : adamsBeta τ t' 0 = 1 := by simp [adamsBeta, newton_zero, tableDen_zero]
theorem adamsBeta_succ (τ : ℕ → ℝ) (t' : ℝ) (i : ℕ) :
    adamsBeta τ t' (i + 1) = adamsBeta τ t' i * (t' - τ i) / (τ 0 - τ (i + 1)) := by
  unfold adamsBeta
  rw [newton_succ, tableDen_succ, mul_div_mul_comm, mul_div_assoc]

theorem TableValid.mono {τ : ℕ → ℝ} {F : ℕ → V} {v w : ℕ} {φ : ℕ → V} (h : TableValid τ F v φ) (hw : w ≤ v) : TableValid τ F w φ :=
  fun m hm => h m (by omega)

/-- the Newton form of the interpolating polynomial at a node -/
theorem TableValid.node {τ : ℕ → ℝ} {F : ℕ → V} {v : ℕ} {φ : ℕ → V} (h : TableValid τ F v φ) {k m : ℕ} (hm : m < v) (hk : m < k) :
    ∑ i ∈ range k, newton τ i (τ m) • ((tableDen τ i)⁻¹ • φ i) = F m := by
  rw [← h m hm]
  symm
  have hsub : range (m + 1) ⊆ range k := range_subset_range.2 hk
  rw [← sum_subset hsub]
  · exact sum_congr rfl fun i _ => by rw [smul_smul, div_eq_mul_inv]
  · intro i _ hi
    rw [newton_node τ (by have := mem_range.not.1 hi; omega), zero_smul]

theorem nodal_degree_lt (τ : ℕ → ℝ) {i k : ℕ} (h : i < k) : (Lagrange.nodal (range i) τ).degree < (k : WithBot ℕ) := by
  rw [Lagrange.degree_nodal, card_range]
  exact_mod_cast h

/-- the predictor -/
theorem table_predictor {τ : ℕ → ℝ} {F : ℕ → V} {v : ℕ} {φ : ℕ → V} (hv : TableValid τ F v φ) {k : ℕ} (hk : k ≤ v)
    (hinj : Set.InjOn τ (range k)) (a b : ℝ) :
    ∑ i ∈ range k, (∫ s in a..b, newton τ i s) • ((tableDen τ i)⁻¹ • φ i) = ∑ j ∈ range k, adamsWeight k τ a b j • F j := by
  have := lagrange_integral k τ F a b hinj k (fun i => Lagrange.nodal (range i) τ) (fun i => (tableDen τ i)⁻¹ • φ i)
    (fun i hi => nodal_degree_lt τ hi)
    (fun j hj => by
      simp only [← newton_eval]
      exact hv.node (by omega) hj)
  simpa only [← newton_eval] using this

/-- the corrector -/
theorem table_corrector {τ : ℕ → ℝ} {F : ℕ → V} {v : ℕ} {φ : ℕ → V} (hv : TableValid τ F v φ) {k : ℕ} (hk : k ≤ v) (t' : ℝ) (fp : V)
    (hinj : Set.InjOn (push t' τ) (range (k + 1))) (hne : newton τ k t' ≠ 0) (a b : ℝ) :
    ∑ i ∈ range k, (∫ s in a..b, newton τ i s) • ((tableDen τ i)⁻¹ • φ i) +
        (∫ s in a..b, newton τ k s) • ((newton τ k t')⁻¹ • (fp - ∑ i ∈ range k, adamsBeta τ t' i • φ i)) =
      ∑ j ∈ range (k + 1), adamsWeight (k + 1) (push t' τ) a b j • push fp F j := by
  set E : V := (newton τ k t')⁻¹ • (fp - ∑ i ∈ range k, adamsBeta τ t' i • φ i) with hE
  have hlow : ∀ (c : ℕ → ℝ), ∑ i ∈ range k, c i • (if i < k then (tableDen τ i)⁻¹ • φ i else E) =
      ∑ i ∈ range k, c i • ((tableDen τ i)⁻¹ • φ i) :=
    fun c => sum_congr rfl fun i hi => by rw [if_pos (mem_range.1 hi)]
  have := lagrange_integral (k + 1) (push t' τ) (push fp F) a b hinj (k + 1) (fun i => Lagrange.nodal (range i) τ)
    (fun i => if i < k then (tableDen τ i)⁻¹ • φ i else E)
    (fun i hi => nodal_degree_lt τ hi)
    (fun j hj => by
      simp only [← newton_eval]
      rw [sum_range_succ, hlow, if_neg (lt_irrefl _)]
      cases j with
      | zero =>
        show ∑ i ∈ range k, newton τ i t' • ((tableDen τ i)⁻¹ • φ i) + newton τ k t' • E = fp
        rw [hE, smul_smul, mul_inv_cancel₀ hne, one_smul]
        have : ∑ i ∈ range k, newton τ i t' • ((tableDen τ i)⁻¹ • φ i) = ∑ i ∈ range k, adamsBeta τ t' i • φ i :=
          sum_congr rfl fun i _ => by rw [smul_smul]; rfl
        rw [this]
        abel
      | succ j =>
        show ∑ i ∈ range k, newton τ i (τ j) • ((tableDen τ i)⁻¹ • φ i) + newton τ k (τ j) • E = F j
        rw [newton_node τ (by omega), zero_smul, add_zero]
        exact hv.node (by omega) (by omega))
  simp only [← newton_eval] at this
  rw [← this, sum_range_succ, hlow, if_neg (lt_irrefl _)]

/-- the table of the next step -/
theorem table_next {τ : ℕ → ℝ} {F : ℕ → V} {v : ℕ} {φ ψ : ℕ → V} (hv : TableValid τ F v φ) (t' : ℝ) (f' : V) {w : ℕ} (hw : w ≤ v)
    (hne : ∀ j < w, t' ≠ τ j) (h0 : ψ 0 = f') (hs : ∀ i < w, ψ (i + 1) = ψ i - adamsBeta τ t' i • φ i) :
    TableValid (push t' τ) (push f' F) (w + 1) ψ := by
  intro m hm
  cases m with
  | zero =>
    simp [newton_zero, tableDen_zero, h0, push]
  | succ m =>
    have hden : ∀ i, tableDen (push t' τ) i = newton τ i t' := fun i => rfl
    show ∑ i ∈ range (m + 1 + 1), (newton (push t' τ) i (τ m) / tableDen (push t' τ) i) • ψ i = F m
    -- Abel summation
    have key : ∀ n ≤ w, ∑ i ∈ range (n + 1), (newton (push t' τ) i (τ m) / tableDen (push t' τ) i) • ψ i =
        (newton τ n (τ m) / newton τ n t') • ψ n + ∑ i ∈ range n, newton τ i (τ m) • ((tableDen τ i)⁻¹ • φ i) := by
      intro n
      induction n with
      | zero => intro _; simp [newton_zero, tableDen_zero]
      | succ n ih =>
        intro hn
        rw [sum_range_succ, ih (by omega), hden, newton_push, sum_range_succ, hs n (by omega)]
        have h1 : newton τ n t' ≠ 0 := newton_ne τ n fun j hj => hne j (by omega)
        have h2 : t' - τ n ≠ 0 := sub_ne_zero.2 (hne n (by omega))
        have e1 : (τ m - t') * newton τ n (τ m) / newton τ (n + 1) t' =
            newton τ (n + 1) (τ m) / newton τ (n + 1) t' - newton τ n (τ m) / newton τ n t' := by
          rw [newton_succ, newton_succ]
          field_simp
          ring
        have e2 : newton τ n (τ m) • ((tableDen τ n)⁻¹ • φ n) = (newton τ n (τ m) / newton τ n t') • (adamsBeta τ t' n • φ n) := by
          unfold adamsBeta
          rw [smul_smul, smul_smul]
          congr 1
          field_simp
        rw [e1, e2]
        module
    rw [key (m + 1) (by omega), newton_node τ (by omega), zero_div, zero_smul, zero_add]
    exact hv.node (by omega) (by omega)

end Verif
