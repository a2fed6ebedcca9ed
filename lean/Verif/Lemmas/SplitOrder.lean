import Verif.Lemmas.BSeriesOrder

/-!
# The order of splitting methods

A step follows alternately two parts of the right hand side.  Each part depends on components only that it does not change, therefore only trees
matter in which no edge joins two nodes of the same colour.
-/

set_option linter.unusedSectionVars false

namespace Verif.BSeries
open Asymptotics Filter Topology Finset

/-- the colour of the root -/
def PTree.root {ι : Type} : PTree ι → ι
  | .leaf c => c
  | .graft _ r => r.root

/-- no edge joins two nodes of the same colour -/
def PTree.Alternating {ι : Type} : PTree ι → Prop
  | .leaf _ => True
  | .graft a r => a.Alternating ∧ r.Alternating ∧ a.root ≠ r.root

section
variable {ι : Type} [Fintype ι] [DecidableEq ι]
variable {E : Type} [NormedAddCommGroup E] [NormedSpace ℝ E]

/-- Part `c` of the right hand side depends on the projection `π c` of the state only, which it does not change. -/
structure Splits (f : ι → E → E) (π : ι → E →L[ℝ] E) : Prop where
  idem : ∀ c x, π c (π c x) = π c x
  dep : ∀ c x, f c x = f c (π c x)
  range : ∀ c x, π c (f c x) = 0

/-- a Taylor series that respects the splitting -/
noncomputable def splitSeries (π : E →L[ℝ] E) (p : FormalMultilinearSeries ℝ E E) : FormalMultilinearSeries ℝ E E := fun n =>
  ((ContinuousLinearMap.id ℝ E - π).compContinuousMultilinearMap (p n)).compContinuousLinearMap fun _ => π

theorem splitSeries_apply (π : E →L[ℝ] E) (p : FormalMultilinearSeries ℝ E E) (n : ℕ) (v : Fin n → E) :
    splitSeries π p n v = p n (fun i => π (v i)) - π (p n fun i => π (v i)) := by
  simp [splitSeries]

theorem Splits.taylorAt {f : ι → E → E} {π : ι → E →L[ℝ] E} (h : Splits f π) {c : ι} {p : FormalMultilinearSeries ℝ E E} {x0 : E} {n : ℕ}
    (hp : TaylorAt (f c) p x0 n) : TaylorAt (f c) (splitSeries (π c) p) x0 n := by
  have h1 : Tendsto (fun y => π c y) (𝓝 0) (𝓝 0) := by
    have := (π c).continuous.tendsto 0
    rwa [map_zero] at this
  have h2 := hp.comp_tendsto h1
  have h3 : (fun y : E => f c (x0 + y) - (splitSeries (π c) p).partialSum n y) =
      fun y => (ContinuousLinearMap.id ℝ E - π c) (f c (x0 + π c y) - p.partialSum n (π c y)) := by
    funext y
    have e1 : f c (x0 + y) = f c (x0 + π c y) := by
      rw [h.dep c (x0 + y), h.dep c (x0 + π c y), map_add, map_add, h.idem]
    rw [e1, map_sub]
    congr 1
    · simp [h.range]
    · simp only [FormalMultilinearSeries.partialSum, map_sum]
      refine sum_congr rfl fun k _ => ?_
      rw [splitSeries_apply]
      simp
  unfold TaylorAt
  rw [h3]
  refine ((ContinuousLinearMap.isBigO_comp _ _ _).trans h2).trans ?_
  refine IsBigO.of_bound (‖π c‖ ^ n) (Eventually.of_forall fun y => ?_)
  simp only [Function.comp]
  rw [norm_pow, norm_pow, norm_norm, norm_norm, ← mul_pow]
  exact pow_le_pow_left₀ (norm_nonneg _) ((π c).le_opNorm y) _

variable {π : ι → E →L[ℝ] E} (hπ : ∀ c x, π c (π c x) = π c x) (p : ι → FormalMultilinearSeries ℝ E E)
include hπ

theorem diff_range (τ : PTree ι) : ∀ acc, π τ.root (diff (fun c => app (splitSeries (π c) (p c))) τ acc) = 0 := by
  induction τ with
  | leaf c =>
    intro acc
    simp only [diff, app, splitSeries_apply, PTree.root, map_sub, hπ, sub_self]
  | graft a r _ hr => exact fun acc => hr _

theorem diff_zero (τ : PTree ι) : ∀ acc, (∃ v ∈ acc, π τ.root v = 0) → diff (fun c => app (splitSeries (π c) (p c))) τ acc = 0 := by
  induction τ with
  | leaf c =>
    rintro acc ⟨v, hv, h0⟩
    obtain ⟨i, hi, rfl⟩ := List.getElem_of_mem hv
    simp only [diff, app, splitSeries_apply]
    have : p c acc.length (fun i => π c (acc.getD i 0)) = 0 := by
      refine (p c acc.length).map_coord_zero ⟨i, hi⟩ ?_
      rw [List.getD_eq_getElem _ _ hi]
      exact h0
    rw [this, map_zero, sub_zero]
  | graft a r _ hr =>
    rintro acc ⟨v, hv, h0⟩
    exact hr _ ⟨v, by simp [hv], h0⟩

theorem diff_not_alternating (τ : PTree ι) (h : ¬ τ.Alternating) : ∀ acc, diff (fun c => app (splitSeries (π c) (p c))) τ acc = 0 := by
  induction τ with
  | leaf c => exact absurd trivial h
  | graft a r ha hr =>
    intro acc
    simp only [diff]
    by_cases h1 : a.Alternating
    · by_cases h2 : r.Alternating
      · have h3 : a.root = r.root := by
          by_contra hne
          exact h ⟨h1, h2, hne⟩
        refine diff_zero hπ p r _ ⟨_, List.mem_append_right _ List.mem_cons_self, ?_⟩
        rw [← h3]
        exact diff_range hπ p a []
      · exact hr h2 _
    · refine diff_zero hπ p r _ ⟨_, List.mem_append_right _ List.mem_cons_self, ?_⟩
      rw [ha h1 [], map_zero]

end

/-! ## The weights -/

section
variable {ι : Type} [DecidableEq ι] {K : Type} [CommRing K]

/-- sums over the sub-steps of a list in reverse order, each weighted by its size and by `w`, which sees the sub-steps before -/
def stepSum (w : List (ι × K) → ι → K) : List (ι × K) → K
  | [] => 0
  | (c, x) :: R => stepSum w R + x * w R c

/-- the weight of a tree at a sub-step of colour `c` after the sub-steps `R` (in reverse order) -/
def stepWeight : PTree ι → List (ι × K) → ι → K
  | .leaf c', _, c => if c' = c then 1 else 0
  | .graft a r, R, c => stepSum (fun R c => stepWeight a R c) R * stepWeight r R c

/-- the weight of a tree in the composition of the sub-steps `L` -/
def totalWeight (L : List (ι × K)) (τ : PTree ι) : K := stepSum (stepWeight τ) L.reverse

theorem stepSum_weight (d : ι × K) (L : List (ι × K)) (τ : PTree ι)
    (h : ∀ i, i < L.length → stageWeight (fun _ j => (L.getD j d).2) (fun j => (L.getD j d).1) τ i = stepWeight τ (L.take i).reverse (L.getD i d).1) :
    ∀ i, i ≤ L.length → ∑ j ∈ range i, (L.getD j d).2 * stageWeight (fun _ j => (L.getD j d).2) (fun j => (L.getD j d).1) τ j =
      stepSum (stepWeight τ) (L.take i).reverse := by
  intro i
  induction i with
  | zero => intro _; simp [stepSum]
  | succ i ih =>
    intro hi
    rw [sum_range_succ, ih (by omega), h i (by omega), List.take_succ_eq_append_getElem (by omega), List.reverse_append]
    simp only [List.reverse_cons, List.reverse_nil, List.nil_append, List.singleton_append, stepSum]
    rw [List.getD_eq_getElem _ _ (by omega : i < L.length)]

theorem stageWeight_steps (d : ι × K) (L : List (ι × K)) (τ : PTree ι) : ∀ i, i < L.length →
    stageWeight (fun _ j => (L.getD j d).2) (fun j => (L.getD j d).1) τ i = stepWeight τ (L.take i).reverse (L.getD i d).1 := by
  induction τ with
  | leaf c => intro i _; rfl
  | graft a r ha hr =>
    intro i hi
    rw [stageWeight, stepWeight, hr i hi, stepSum_weight d L a ha i hi.le]

end

section
variable {ι : Type} [Fintype ι] [DecidableEq ι]
variable {E : Type} [NormedAddCommGroup E] [NormedSpace ℝ E]

/-- The order conditions of the composition of the sub-steps `L`, up to order `p`. -/
def SplitConditions (L : List (ι × ℝ)) (p : ℕ) : Prop :=
  ∀ τ : PTree ι, τ.Alternating → τ.size ≤ p → totalWeight L τ = exactWeight τ / (τ.size : ℝ)

/-- the composition of the sub-steps `L` for a step of size `h` -/
def splitStep (f : ι → E → E) (L : List (ι × ℝ)) (h : ℝ) (x : E) : E := L.foldl (fun y e => y + (e.2 * h) • f e.1 y) x

theorem splitStep_stages (f : ι → E → E) (d : ι × ℝ) (L : List (ι × ℝ)) (h : ℝ) (x : E) : ∀ i, i ≤ L.length →
    splitStep f (L.take i) h x = x + h • ∑ j ∈ range i, (L.getD j d).2 • f (L.getD j d).1 (splitStep f (L.take j) h x) := by
  intro i
  induction i with
  | zero => intro _; simp [splitStep]
  | succ i ih =>
    intro hi
    rw [sum_range_succ, smul_add, ← add_assoc, ← ih (by omega), List.take_succ_eq_append_getElem (by omega)]
    rw [List.getD_eq_getElem _ _ (by omega : i < L.length)]
    simp only [splitStep, List.foldl_append, List.foldl_cons, List.foldl_nil]
    rw [smul_smul, mul_comm]

/-- The order of a splitting method. -/
theorem split_order [CompleteSpace E] [Nonempty ι] {f : ι → E → E} {π : ι → E →L[ℝ] E} (hs : Splits f π) {L : List (ι × ℝ)} {p : ℕ} (hp : 1 ≤ p)
    (hL : SplitConditions L p) {x0 : E} (hf : ∀ c, ContDiffAt ℝ p (f c) x0) {t0 : ℝ} {φ : ℝ → E} (h0 : φ t0 = x0)
    (hφ : ∀ᶠ t in 𝓝 t0, HasDerivAt φ (∑ c, f c (φ t)) t) :
    (fun h => splitStep f L h x0 - φ (t0 + h)) =O[𝓝 0] fun h : ℝ => h ^ (p + 1) := by
  obtain ⟨N, rfl⟩ : ∃ N, p = N + 1 := ⟨p - 1, by omega⟩
  obtain ⟨c0⟩ := ‹Nonempty ι›
  set d : ι × ℝ := (c0, 0)
  set s : ι → FormalMultilinearSeries ℝ E E := fun c => splitSeries (π c) fun k => (k.factorial : ℝ)⁻¹ • iteratedFDeriv ℝ k (f c) x0 with hsdef
  have hT : ∀ c, TaylorAt (f c) (s c) x0 (N + 1) := fun c => hs.taylorAt (taylorAt_of_contDiffAt (by exact_mod_cast hf c))
  have hk : ∀ i, i < L.length → ∀ h, f (L.getD i d).1 (splitStep f (L.take i) h x0) =
      f (L.getD i d).1 (x0 + h • ∑ j ∈ range i, (L.getD j d).2 • f (L.getD j d).1 (splitStep f (L.take j) h x0)) := by
    intro i hi h
    rw [← splitStep_stages f d L h x0 i hi.le]
  have h1 := (Exp.sum (range L.length) (fun i hi => stage_expand hT (fun _ j => (L.getD j d).2) (fun j => (L.getD j d).1) L.length
    (k := fun i h => f (L.getD i d).1 (splitStep f (L.take i) h x0)) hk i (Finset.mem_range.1 hi)) fun j => (L.getD j d).2).shift
  have hy : ∀ᶠ h in 𝓝 (0 : ℝ), HasDerivAt (fun h => φ (t0 + h) - x0) (∑ c, f c (x0 + (φ (t0 + h) - x0))) h := by
    have ht : Tendsto (fun h : ℝ => t0 + h) (𝓝 0) (𝓝 t0) := by
      have : ContinuousAt (fun h : ℝ => t0 + h) 0 := by fun_prop
      simpa [ContinuousAt] using this
    filter_upwards [ht.eventually hφ] with h hh
    simp only [add_sub_cancel]
    exact (hh.comp_const_add t0 h).sub_const x0
  have h2 := exact_expand (y := fun h => φ (t0 + h) - x0) (by simp [h0]) hy (N + 1) hT
  refine (h1.sub h2 fun q hq => ?_).congr_left fun h => ?_
  · cases q with
    | zero => rfl
    | succ q =>
      simp only [tsum_smul, ← tsum_finset]
      refine tsum_congr q fun τ hτ => ?_
      simp only [smul_smul]
      rw [← Finset.sum_smul]
      by_cases ha : τ.Alternating
      · rw [← hL τ ha (by omega), stepSum_weight d L τ (stageWeight_steps d L τ) L.length le_rfl, List.take_length]
        rfl
      · have : elem (fun c => app (s c)) τ = 0 := diff_not_alternating hs.idem _ τ ha []
        rw [this, smul_zero, smul_zero]
  · have := splitStep_stages f d L h x0 L.length le_rfl
    rw [List.take_length] at this
    rw [this]
    abel

end

end Verif.BSeries
