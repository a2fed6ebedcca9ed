import Verif.Lemmas.BSeriesForm
import Mathlib.Tactic.Ring
import Mathlib.Tactic.Abel
import Mathlib.Algebra.BigOperators.Field

/-!
# Trees

The expansions of the stages of an explicit Runge-Kutta method and of the exact solution in powers of the step size, as sums over planar
trees whose nodes carry a colour (one colour for a Runge-Kutta method, one colour per part of the right-hand side for a partitioned method).
-/

set_option linter.unusedSectionVars false

namespace Verif.BSeries
open Asymptotics Filter Topology Finset

/-- planar trees with coloured nodes: one node, or a tree with a further first branch -/
inductive PTree (ι : Type) where
  | leaf (c : ι)
  | graft (a r : PTree ι)

/-- the number of nodes -/
def PTree.size {ι : Type} : PTree ι → ℕ
  | .leaf _ => 1
  | .graft a r => a.size + r.size

theorem PTree.size_pos {ι : Type} (τ : PTree ι) : 1 ≤ τ.size := by
  induction τ with
  | leaf => exact le_rfl
  | graft a r ha hr => simp only [PTree.size]; omega

/-- the weight of a tree with root of colour `c`, given the weights `w` of the branches -/
def weight {ι K : Type} [DecidableEq ι] [MulZeroOneClass K] (c : ι) (w : PTree ι → K) : PTree ι → K
  | .leaf c' => if c' = c then 1 else 0
  | .graft a r => w a * weight c w r

/-- the elementary weights of stage `i`: `Φ_i(leaf) = 1`, `Φ_i(graft a r) = (sum_{j<i} a_ij Φ_j(a)) Φ_i(r)` -/
def stageWeight {ι K : Type} [DecidableEq ι] [CommSemiring K] (A : ℕ → ℕ → K) (col : ℕ → ι) : PTree ι → ℕ → K
  | .leaf c, i => if c = col i then 1 else 0
  | .graft a r, i => (∑ j ∈ range i, A i j * stageWeight A col a j) * stageWeight A col r i

/-- the weights of the derivative of the exact solution -/
def exactWeight {ι K : Type} [Field K] : PTree ι → K
  | .leaf _ => 1
  | .graft a r => exactWeight a / (a.size : K) * exactWeight r

theorem weight_stage {ι K : Type} [DecidableEq ι] [CommSemiring K] (A : ℕ → ℕ → K) (col : ℕ → ι) (i : ℕ) (τ : PTree ι) :
    weight (col i) (fun a => ∑ j ∈ range i, A i j * stageWeight A col a j) τ = stageWeight A col τ i := by
  induction τ with
  | leaf c => rfl
  | graft a r _ hr => simp only [weight, stageWeight, hr]

theorem weight_exact {ι K : Type} [Fintype ι] [DecidableEq ι] [Field K] (τ : PTree ι) :
    ∑ c, weight c (fun a : PTree ι => exactWeight a / (a.size : K)) τ = exactWeight τ := by
  induction τ with
  | leaf c => simp [weight, exactWeight]
  | graft a r _ hr => simp only [weight, exactWeight, ← Finset.mul_sum, hr]

section
variable {ι : Type} [Fintype ι] [DecidableEq ι]
variable {V : Type*} [NormedAddCommGroup V] [NormedSpace ℝ V]

/-- the sum of `g` over all trees with `q + 1` nodes -/
def tsum : ℕ → (PTree ι → V) → V
  | 0, g => ∑ c, g (.leaf c)
  | q + 1, g => ∑ s : Fin (q + 1), tsum s fun a => tsum (q - s) fun r => g (.graft a r)
termination_by q => q
decreasing_by all_goals omega

theorem tsum_zero (g : PTree ι → V) : tsum 0 g = ∑ c, g (.leaf c) := by rw [tsum]

theorem tsum_succ (q : ℕ) (g : PTree ι → V) :
    tsum (q + 1) g = ∑ s ∈ range (q + 1), tsum s fun a => tsum (q - s) fun r => g (.graft a r) := by
  rw [tsum, Finset.sum_range (fun s => tsum s fun a => tsum (q - s) fun r => g (.graft a r))]

theorem tsum_congr (q : ℕ) : ∀ {g g' : PTree ι → V}, (∀ τ, τ.size = q + 1 → g τ = g' τ) → tsum q g = tsum q g' := by
  induction q using Nat.strong_induction_on with
  | _ q ih =>
    intro g g' h
    cases q with
    | zero => rw [tsum_zero, tsum_zero]; exact Finset.sum_congr rfl fun c _ => h _ rfl
    | succ q =>
      rw [tsum_succ, tsum_succ]
      refine Finset.sum_congr rfl fun s hs => ?_
      have := Finset.mem_range.1 hs
      refine ih s (by omega) fun a ha => ih (q - s) (by omega) fun r hr => h _ ?_
      simp only [PTree.size]
      omega

theorem tsum_finset {α : Type*} (S : Finset α) (q : ℕ) : ∀ (g : α → PTree ι → V),
    tsum q (fun τ => ∑ j ∈ S, g j τ) = ∑ j ∈ S, tsum q (g j) := by
  induction q using Nat.strong_induction_on with
  | _ q ih =>
    intro g
    cases q with
    | zero => simp only [tsum_zero]; rw [Finset.sum_comm]
    | succ q =>
      simp only [tsum_succ]
      rw [Finset.sum_comm]
      refine Finset.sum_congr rfl fun s hs => ?_
      have := Finset.mem_range.1 hs
      rw [← ih s (by omega)]
      refine tsum_congr s fun a _ => ?_
      rw [← ih (q - s) (by omega)]

theorem tsum_map {W : Type*} [NormedAddCommGroup W] [NormedSpace ℝ W] (L : V →ₗ[ℝ] W) (q : ℕ) : ∀ (g : PTree ι → V),
    L (tsum q g) = tsum q (fun τ => L (g τ)) := by
  induction q using Nat.strong_induction_on with
  | _ q ih =>
    intro g
    cases q with
    | zero => simp only [tsum_zero, map_sum]
    | succ q =>
      simp only [tsum_succ, map_sum]
      refine Finset.sum_congr rfl fun s hs => ?_
      have := Finset.mem_range.1 hs
      rw [ih s (by omega)]
      exact tsum_congr s fun a _ => ih (q - s) (by omega) _

theorem tsum_smul (q : ℕ) (c : ℝ) (g : PTree ι → V) : c • tsum q g = tsum q (fun τ => c • g τ) :=
  tsum_map (c • LinearMap.id : V →ₗ[ℝ] V) q g

/-- the elementary differential of a tree, with the branches `acc` already attached to the root -/
def diff (P : ι → List V → V) : PTree ι → List V → V
  | .leaf c, acc => P c acc
  | .graft a r, acc => diff P r (acc ++ [diff P a []])

/-- the elementary differential -/
def elem (P : ι → List V → V) (τ : PTree ι) : V := diff P τ []

theorem diff_form_smul {P : ι → List V → V} (hP : ∀ c, Form (P c)) (τ : PTree ι) :
    ∀ (l₁ l₂ : List V) (s : ℝ) (g : V), diff P τ (l₁ ++ (s • g) :: l₂) = s • diff P τ (l₁ ++ g :: l₂) := by
  induction τ with
  | leaf c => intro l₁ l₂ s g; exact (hP c).smul l₁ l₂ s g
  | graft a r _ hr =>
    intro l₁ l₂ s g
    simp only [diff, List.append_assoc, List.cons_append]
    exact hr _ _ _ _

theorem diff_form_add {P : ι → List V → V} (hP : ∀ c, Form (P c)) (τ : PTree ι) :
    ∀ (l₁ l₂ : List V) (g g' : V), diff P τ (l₁ ++ (g + g') :: l₂) = diff P τ (l₁ ++ g :: l₂) + diff P τ (l₁ ++ g' :: l₂) := by
  induction τ with
  | leaf c => intro l₁ l₂ g g'; exact (hP c).add l₁ l₂ g g'
  | graft a r _ hr =>
    intro l₁ l₂ g g'
    simp only [diff, List.append_assoc, List.cons_append]
    exact hr _ _ _ _

/-- `diff` is linear in the branch attached last -/
def diffL {P : ι → List V → V} (hP : ∀ c, Form (P c)) (τ : PTree ι) (acc : List V) : V →ₗ[ℝ] V where
  toFun v := diff P τ (acc ++ [v])
  map_add' := diff_form_add hP τ acc []
  map_smul' := diff_form_smul hP τ acc []

/-- the coefficients of a composition as sums over trees -/
theorem coef_trees {P : ι → List V → V} (hP : ∀ c, Form (P c)) (c₀ : ι) {c : ℕ → V} {w : PTree ι → ℝ} (N : ℕ)
    (hc : ∀ s, s < N → c (s + 1) = tsum s fun τ => w τ • elem P τ) :
    ∀ q, q ≤ N → ∀ acc, coef (P c₀) c q acc = tsum q fun τ => weight c₀ w τ • diff P τ acc := by
  intro q
  induction q using Nat.strong_induction_on with
  | _ q ih =>
    intro hq acc
    cases q with
    | zero =>
      rw [coef_zero, tsum_zero]
      simp [weight, diff]
    | succ q =>
      rw [coef_succ, tsum_succ]
      refine Finset.sum_congr rfl fun s hs => ?_
      have := Finset.mem_range.1 hs
      rw [ih (q - s) (by omega) (by omega), hc s (by omega)]
      have h1 : ∀ r : PTree ι, weight c₀ w r • diff P r (acc ++ [tsum s fun τ => w τ • elem P τ]) =
          tsum s fun a => (w a * weight c₀ w r) • diff P r (acc ++ [elem P a]) := by
        intro r
        rw [show diff P r (acc ++ [tsum s fun τ => w τ • elem P τ]) = diffL hP r acc (tsum s fun τ => w τ • elem P τ) from rfl,
          tsum_map, tsum_smul]
        refine tsum_congr s fun a _ => ?_
        rw [map_smul, smul_smul, mul_comm]
        rfl
      simp only [h1]
      have h2 : ∀ (s t : ℕ) (g : PTree ι → PTree ι → V), (tsum t fun r => tsum s fun a => g a r) = tsum s fun a => tsum t fun r => g a r := by
        intro s
        induction s using Nat.strong_induction_on with
        | _ s ihs =>
          intro t g
          cases s with
          | zero => simp only [tsum_zero]; rw [tsum_finset]
          | succ s =>
            simp only [tsum_succ]
            rw [tsum_finset]
            refine Finset.sum_congr rfl fun u hu => ?_
            have := Finset.mem_range.1 hu
            rw [ihs u (by omega)]
            refine tsum_congr u fun a _ => ?_
            rw [ihs (s - u) (by omega)]
      rw [h2]
      rfl

/-- the expansion of the stages of an explicit method -/
theorem stage_expand {f : ι → V → V} {p : ι → FormalMultilinearSeries ℝ V V} {x0 : V} {N : ℕ}
    (hf : ∀ c, TaylorAt (f c) (p c) x0 (N + 1)) (A : ℕ → ℕ → ℝ) (col : ℕ → ι) (n : ℕ) {k : ℕ → ℝ → V}
    (hk : ∀ i, i < n → ∀ h, k i h = f (col i) (x0 + h • ∑ j ∈ range i, A i j • k j h)) :
    ∀ i, i < n → Exp (k i) (fun q => tsum q fun τ => stageWeight A col τ i • elem (fun c => app (p c)) τ) N := by
  intro i
  induction i using Nat.strong_induction_on with
  | _ i ih =>
    intro hi
    have h1 : Exp (fun h => ∑ j ∈ range i, A i j • k j h)
        (fun q => ∑ j ∈ range i, A i j • tsum q fun τ => stageWeight A col τ j • elem (fun c => app (p c)) τ) N := by
      refine Exp.sum (range i) (fun j hj => ?_) (A i)
      have := Finset.mem_range.1 hj
      exact ih j this (by omega)
    have h2 := h1.shift.mono (Nat.le_succ N)
    have h3 := comp_expand (hf (col i)) rfl h2
    refine h3.congr (fun h => (hk i hi h).symm) fun q hq => ?_
    rw [coef_trees (P := fun c => app (p c)) (fun c => app_form (p c)) (col i)
      (w := fun a => ∑ j ∈ range i, A i j * stageWeight A col a j) N (fun s _ => ?_) q hq []]
    · refine tsum_congr q fun τ _ => ?_
      rw [weight_stage]
      rfl
    · simp only [tsum_smul, ← tsum_finset, Finset.sum_smul, smul_smul]

/-- the expansion of the exact solution -/
theorem exact_expand {f : ι → V → V} {p : ι → FormalMultilinearSeries ℝ V V} {x0 : V} {y : ℝ → V}
    (h0 : y 0 = 0) (hy : ∀ᶠ h in 𝓝 (0 : ℝ), HasDerivAt y (∑ c, f c (x0 + y h)) h) :
    ∀ N, (∀ c, TaylorAt (f c) (p c) x0 N) →
      Exp y (fun s => match s with
        | 0 => 0
        | s + 1 => tsum s fun τ => (exactWeight τ / (τ.size : ℝ)) • elem (fun c => app (p c)) τ) N := by
  intro N
  induction N with
  | zero =>
    intro _
    have h1 := (hy.self_of_nhds).differentiableAt.isBigO_sub
    unfold Exp
    simpa [h0] using h1
  | succ N ih =>
    intro hf
    have hN : ∀ c, TaylorAt (f c) (p c) x0 N := by
      intro c
      have h1 := hf c
      unfold TaylorAt at *
      have e : (fun y : V => f c (x0 + y) - (p c).partialSum N y) =
          fun y : V => (f c (x0 + y) - (p c).partialSum (N + 1) y) + p c N fun _ => y := by
        funext y
        simp only [FormalMultilinearSeries.partialSum, Finset.sum_range_succ]
        abel
      rw [e]
      refine IsBigO.add ?_ ?_
      · refine h1.trans ?_
        have h2 : (fun y : V => ‖y‖) =O[𝓝 0] fun _ => (1 : ℝ) := by
          have : Tendsto (fun y : V => ‖y‖) (𝓝 0) (𝓝 ‖(0 : V)‖) := continuous_norm.continuousAt
          exact this.isBigO_one ℝ
        have h3 := (isBigO_refl (fun y : V => ‖y‖ ^ N) (𝓝 0)).mul h2
        simpa [pow_succ] using h3
      · refine IsBigO.of_bound ‖p c N‖ (Eventually.of_forall fun y => ?_)
        refine ((p c N).le_opNorm _).trans (le_of_eq ?_)
        simp
    have hI := ih hN
    have h1 : ∀ c, Exp (fun h => f c (x0 + y h)) _ N := fun c => comp_expand (hf c) rfl hI
    have h2 := Exp.sum Finset.univ (fun c _ => h1 c) (fun _ => (1 : ℝ))
    simp only [one_smul] at h2
    refine (Exp.integrate hy h0 h2).congr (fun _ => rfl) fun s hs => ?_
    cases s with
    | zero => rfl
    | succ s =>
      simp only []
      rw [Finset.sum_congr rfl fun c _ => coef_trees (P := fun c => app (p c)) (fun c => app_form (p c)) c
        (w := fun τ => exactWeight τ / (τ.size : ℝ)) N (fun _ _ => rfl) s (by omega) [], ← tsum_finset, tsum_smul]
      refine tsum_congr s fun τ hτ => ?_
      rw [← Finset.sum_smul, weight_exact, smul_smul, hτ]
      congr 1
      push_cast
      ring

/-- order of an explicit method: `x0 + h sum b_i k_i` agrees with the exact solution up to `O(h^(p+1))` if the order conditions hold
for all trees with at most `p` nodes -/
theorem order_of_conditions {f : ι → V → V} {p : ι → FormalMultilinearSeries ℝ V V} {x0 : V} {N : ℕ}
    (hf : ∀ c, TaylorAt (f c) (p c) x0 (N + 1)) (A : ℕ → ℕ → ℝ) (b : ℕ → ℝ) (col : ℕ → ι) (n : ℕ) {k : ℕ → ℝ → V}
    (hk : ∀ i, i < n → ∀ h, k i h = f (col i) (x0 + h • ∑ j ∈ range i, A i j • k j h))
    {y : ℝ → V} (h0 : y 0 = 0) (hy : ∀ᶠ h in 𝓝 (0 : ℝ), HasDerivAt y (∑ c, f c (x0 + y h)) h)
    (hb : ∀ τ : PTree ι, τ.size ≤ N + 1 → ∑ i ∈ range n, b i * stageWeight A col τ i = exactWeight τ / (τ.size : ℝ)) :
    (fun h => (x0 + h • ∑ i ∈ range n, b i • k i h) - (x0 + y h)) =O[𝓝 0] fun h : ℝ => h ^ (N + 2) := by
  have h1 := Exp.sum (range n) (fun i hi => stage_expand hf A col n hk i (Finset.mem_range.1 hi)) b
  have h2 := exact_expand h0 hy (N + 1) hf
  refine (h1.shift.sub h2 fun s hs => ?_).congr_left fun h => by abel
  cases s with
  | zero => rfl
  | succ s =>
    simp only [tsum_smul, ← tsum_finset]
    refine tsum_congr s fun τ hτ => ?_
    rw [← hb τ (by omega), Finset.sum_smul]
    simp only [smul_smul]

/-- size of a linear combination of the stages: `h sum e_i k_i = O(h^(p+1))` if `sum e_i Φ_i` vanishes for all trees with at most `p` nodes -/
theorem small_of_conditions {f : ι → V → V} {p : ι → FormalMultilinearSeries ℝ V V} {x0 : V} {N : ℕ}
    (hf : ∀ c, TaylorAt (f c) (p c) x0 (N + 1)) (A : ℕ → ℕ → ℝ) (b : ℕ → ℝ) (col : ℕ → ι) (n : ℕ) {k : ℕ → ℝ → V}
    (hk : ∀ i, i < n → ∀ h, k i h = f (col i) (x0 + h • ∑ j ∈ range i, A i j • k j h))
    (hb : ∀ τ : PTree ι, τ.size ≤ N + 1 → ∑ i ∈ range n, b i * stageWeight A col τ i = 0) :
    (fun h => h • ∑ i ∈ range n, b i • k i h) =O[𝓝 0] fun h : ℝ => h ^ (N + 2) := by
  have h1 := (Exp.sum (range n) (fun i hi => stage_expand hf A col n hk i (Finset.mem_range.1 hi)) b).shift
  have h2 : Exp (fun _ : ℝ => (0 : V)) (fun _ => 0) (N + 1) := by
    unfold Exp
    simpa using isBigO_zero _ _
  refine (h1.sub h2 fun s hs => ?_).congr_left fun h => sub_zero _
  cases s with
  | zero => rfl
  | succ s =>
    simp only [tsum_smul, ← tsum_finset]
    have : (0 : V) = tsum s (fun _ : PTree ι => (0 : V)) := by
      have := tsum_smul s (0 : ℝ) (fun _ : PTree ι => (0 : V))
      simpa using this
    rw [this]
    refine tsum_congr s fun τ hτ => ?_
    simp only [smul_smul]
    rw [← Finset.sum_smul, hb τ (by omega), zero_smul]

end

end Verif.BSeries
