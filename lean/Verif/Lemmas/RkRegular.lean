import Verif.Spec.Convergence
import Verif.Lemmas.UniformOrder
import Verif.Props.Order

/-! # Explicit one-step methods are smooth and Lipschitz continuous -/

namespace Verif
open Asymptotics Filter Topology Finset BSeries

variable {V W : Type} [NormedAddCommGroup V] [NormedSpace ℝ V]

/-- `Φ x t h` is given by some explicit Runge-Kutta formula -/
def IsRk (f : V → ℝ → V) (Φ : V → ℝ → ℝ → V) : Prop :=
  ∃ (n : ℕ) (A : ℕ → ℕ → ℝ) (c b : ℕ → ℝ) (k : V → ℝ → ℝ → ℕ → V),
    (∀ x t h i, i < n → k x t h i = f (x + h • ∑ j ∈ range i, A i j • k x t h j) (t + c i * h)) ∧
    ∀ x t h, Φ x t h = x + h • ∑ i ∈ range n, b i • k x t h i

/-- smooth, and close to the identity with respect to the state -/
structure RegularStep (n : ℕ) (Φ : V → ℝ → ℝ → V) : Prop where
  smooth : ContDiff ℝ n fun z : V × ℝ × ℝ => Φ z.1 z.2.1 z.2.2
  lipschitz : ∀ B, ∃ C, 0 ≤ C ∧ ∀ x y t h, |h| ≤ B → ‖Φ x t h - Φ y t h‖ ≤ (1 + C * |h|) * ‖x - y‖

theorem IsRk.regular {f : V → ℝ → V} {n : ℕ} (hf : GoodRhs f n) {Φ : V → ℝ → ℝ → V} (hΦ : IsRk f Φ) : RegularStep n Φ := by
  obtain ⟨m, A, c, b, k, hk, hΦ⟩ := hΦ
  obtain ⟨L0, hL0⟩ := hf.lipschitz
  obtain ⟨L, hL, hL'⟩ : ∃ L, 0 ≤ L ∧ ∀ x y t, ‖f x t - f y t‖ ≤ L * ‖x - y‖ :=
    ⟨max L0 0, le_max_right _ _, fun x y t => (hL0 x y t).trans (mul_le_mul_of_nonneg_right (le_max_left _ _) (norm_nonneg _))⟩
  have hks : ∀ i, i < m → ContDiff ℝ n fun z : V × ℝ × ℝ => k z.1 z.2.1 z.2.2 i := by
    intro i
    induction i using Nat.strong_induction_on with
    | _ i ih =>
      intro hi
      have e : (fun z : V × ℝ × ℝ => k z.1 z.2.1 z.2.2 i) = (fun z : V × ℝ => f z.1 z.2) ∘ fun z : V × ℝ × ℝ =>
          (z.1 + z.2.2 • ∑ j ∈ range i, A i j • k z.1 z.2.1 z.2.2 j, z.2.1 + c i * z.2.2) := funext fun z => hk _ _ _ i hi
      rw [e]
      refine hf.smooth.comp (ContDiff.prodMk ?_ ?_)
      · refine contDiff_fst.add (ContDiff.smul (contDiff_snd.comp contDiff_snd) (ContDiff.sum fun j hj => ?_))
        exact contDiff_const.smul (ih j (mem_range.1 hj) (by have := mem_range.1 hj; omega))
      · exact (contDiff_fst.comp contDiff_snd).add (contDiff_const.mul (contDiff_snd.comp contDiff_snd))
  have hkl : ∀ D : ℝ, 0 ≤ D → ∀ i, i < m → ∃ B, 0 ≤ B ∧ ∀ x y t h, |h| ≤ D → ‖k x t h i - k y t h i‖ ≤ B * ‖x - y‖ := by
    intro D hD i
    induction i using Nat.strong_induction_on with
    | _ i ih =>
      intro hi
      choose! B hB0 hB using fun j (hj : j < i) => ih j hj (by omega)
      refine ⟨L * (1 + D * ∑ j ∈ range i, |A i j| * B j), mul_nonneg hL (add_nonneg zero_le_one (mul_nonneg hD (sum_nonneg fun j hj =>
        mul_nonneg (abs_nonneg _) (hB0 j (mem_range.1 hj))))), ?_⟩
      intro x y t h hh
      rw [hk x t h i hi, hk y t h i hi, mul_assoc]
      refine (hL' _ _ _).trans (mul_le_mul_of_nonneg_left ?_ hL)
      have e : x + h • ∑ j ∈ range i, A i j • k x t h j - (y + h • ∑ j ∈ range i, A i j • k y t h j) =
          (x - y) + h • ∑ j ∈ range i, A i j • (k x t h j - k y t h j) := by
        simp only [smul_sub, sum_sub_distrib]
        abel
      rw [e, add_mul, one_mul]
      refine (norm_add_le _ _).trans (add_le_add le_rfl ?_)
      rw [norm_smul, Real.norm_eq_abs, mul_assoc, sum_mul]
      refine mul_le_mul hh ((norm_sum_le _ _).trans (sum_le_sum fun j hj => ?_)) (norm_nonneg _) hD
      rw [norm_smul, Real.norm_eq_abs, mul_assoc]
      exact mul_le_mul_of_nonneg_left (hB j (mem_range.1 hj) x y t h hh) (abs_nonneg _)
  refine ⟨?_, fun D => ?_⟩
  rotate_left
  choose! B hB0 hB using hkl (max D 0) (le_max_right _ _)
  refine ⟨∑ i ∈ range m, |b i| * B i, sum_nonneg fun i hi => mul_nonneg (abs_nonneg _) (hB0 i (mem_range.1 hi)), ?_⟩
  rotate_left
  · have e : (fun z : V × ℝ × ℝ => Φ z.1 z.2.1 z.2.2) = fun z : V × ℝ × ℝ => z.1 + z.2.2 • ∑ i ∈ range m, b i • k z.1 z.2.1 z.2.2 i :=
      funext fun z => hΦ _ _ _
    rw [e]
    exact contDiff_fst.add (ContDiff.smul (contDiff_snd.comp contDiff_snd) (ContDiff.sum fun j hj =>
      contDiff_const.smul (hks j (mem_range.1 hj))))
  · intro x y t h hh
    rw [hΦ, hΦ]
    have e : x + h • ∑ j ∈ range m, b j • k x t h j - (y + h • ∑ j ∈ range m, b j • k y t h j) =
        (x - y) + h • ∑ j ∈ range m, b j • (k x t h j - k y t h j) := by
      simp only [smul_sub, sum_sub_distrib]
      abel
    rw [e, add_mul, one_mul]
    refine (norm_add_le _ _).trans (add_le_add le_rfl ?_)
    rw [norm_smul, Real.norm_eq_abs, mul_comm (∑ i ∈ range m, |b i| * B i), mul_assoc, sum_mul]
    refine mul_le_mul_of_nonneg_left ((norm_sum_le _ _).trans (sum_le_sum fun j hj => ?_)) (abs_nonneg _)
    rw [norm_smul, Real.norm_eq_abs, mul_assoc]
    exact mul_le_mul_of_nonneg_left (hB j (mem_range.1 hj) x y t h (hh.trans (le_max_left _ _))) (abs_nonneg _)

/-- A regular step of order `p`, along a solution: the local errors are uniformly `O( h^(p+1) )`. -/
theorem local_error_uniform [CompleteSpace V] {p : ℕ} {f : V → ℝ → V} (hf : GoodRhs f (p + 1)) {Φ : V → ℝ → ℝ → V} (hΦ : RegularStep (p + 1) Φ)
    {φ : ℝ → V} (hφ : IsFlowLine f φ) (hord : ∀ t, LocalOrder p (Φ (φ t) t) t φ) (a b B : ℝ) :
    ∃ M, 0 ≤ M ∧ ∀ t ∈ Set.Icc a b, ∀ h, |h| ≤ B → ‖Φ (φ t) t h - φ (t + h)‖ ≤ M * |h| ^ (p + 1) := by
  have hs : ContDiff ℝ (p + 1 : ℕ) φ := (solution_smooth hf.smooth hφ).of_le (by exact_mod_cast (by omega : p + 1 ≤ p + 1 + 1))
  refine uniform_of_pointwise_le (G := fun z : ℝ × ℝ => Φ (φ z.1) z.1 z.2 - φ (z.1 + z.2)) ?_ hord a b B
  have h1 : ContDiff ℝ (p + 1 : ℕ) fun z : ℝ × ℝ => Φ (φ z.1) z.1 z.2 :=
    hΦ.smooth.comp ((hs.comp contDiff_fst).prodMk (contDiff_fst.prodMk contDiff_snd))
  have h2 : ContDiff ℝ (p + 1 : ℕ) fun z : ℝ × ℝ => φ (z.1 + z.2) := hs.comp (contDiff_fst.add contDiff_snd)
  exact_mod_cast h1.sub h2

theorem stageFn_isRk (T : Tableau ℝ) (f : V → ℝ → V) : IsRk f fun x t h => T.result x h (T.stageFn f x t h) :=
  ⟨T.size, T.aij, T.ci, T.bi, fun x t h => T.stageFn f x t h, fun x t h i hi => T.stageFn_isStages f x t h i hi, fun _ _ _ => rfl⟩

variable [CompleteSpace V]

/-- What a step of each stepper computes. -/
theorem recipe_regular (s : ExplicitStepper ℝ) (hw : s.WellFormed) {p : ℕ} (hp : s.order = some p) {sys : Sys ℝ V W} {f : V → ℝ → V}
    (hs : Evaluates sys f) :
    ∃ Φ : V → ℝ → ℝ → V, (∀ x t h w, ∃ w', s.recipe sys x (f x t) t h w = .ok (Φ x t h) w') ∧ IsRk f Φ ∧
      ∀ x t φ, SmoothAt f p x t → IsSolution f x t φ → LocalOrder p (Φ x t) t φ := by
  have key : ∀ (T : Tableau ℝ) (q : ℕ), T.WellFormed → 1 ≤ q → q = p → (∀ i, i < T.size → T.ci i = ∑ j ∈ range i, T.aij i j) →
      BSeries.OrderConditions T.aij T.bi T.size q →
      ∃ Φ : V → ℝ → ℝ → V, (∀ x t h w, ∃ w', rkStep T sys x (f x t) t h w = .ok (Φ x t h) w') ∧ IsRk f Φ ∧
      ∀ x t φ, SmoothAt f p x t → IsSolution f x t φ → LocalOrder p (Φ x t) t φ := by
    rintro T q hT hq rfl hc hb
    exact ⟨fun x t h => T.result x h (T.stageFn f x t h), fun x t h w => rkStep_value hs T hT x t h w, stageFn_isRk T f,
      fun x t φ hf hφ => BSeries.rk_order hc hq hb hf hφ.start hφ.deriv (k := fun i h => T.stageFn f x t h i) fun h => T.stageFn_isStages f x t h⟩
  cases s with
  | euler =>
    obtain rfl : 1 = p := Option.some.inj hp
    refine ⟨fun x t h => x + h • f x t, fun x t h w => ⟨w, ?_⟩, ?_, fun x t φ hf hφ => ?_⟩
    · simp only [ExplicitStepper.recipe, eulerStep, M.pure_apply, lin_exact]
      simp [lit]
    · have := stageFn_isRk eulerTableau f
      simpa only [euler_result] using this
    · have := BSeries.rk_order euler_nodes le_rfl euler_conditions hf hφ.start hφ.deriv (k := fun i h => eulerTableau.stageFn f x t h i)
        fun h => eulerTableau.stageFn_isStages f x t h
      simpa only [euler_result, LocalOrder] using this
  | generic T => cases hp
  | rk4 => exact key _ 4 rk4Tableau_wf (by norm_num) (Option.some.inj hp) rk4_nodes rk4_conditions
  | rk4Classic =>
    simp only [ExplicitStepper.recipe, ← rk4_recipe_eq]
    exact key _ 4 rk4Tableau_wf (by norm_num) (Option.some.inj hp) rk4_nodes rk4_conditions
  | cashKarp => exact key _ 5 cashKarpTableau_wf (by norm_num) (Option.some.inj hp) cashKarp_nodes cashKarp_conditions
  | cashKarpClassic =>
    simp only [ExplicitStepper.recipe, ← cashKarp_recipe_eq]
    exact key _ 5 cashKarpTableau_wf (by norm_num) (Option.some.inj hp) cashKarp_nodes cashKarp_conditions
  | fehlberg => exact key _ 8 fehlbergTableau_wf (by norm_num) (Option.some.inj hp) fehlberg_nodes fehlberg_conditions
  | midpoint m =>
    obtain rfl : 2 = p := Option.some.inj hp
    refine ⟨fun x t h => graggValue f m x t h, fun x t h w => midpointStep_value hs m hw.1 x t h w,
      ⟨m + 1, fun i j => alpha i j / m, fun i => (i : ℝ) / m, graggB m, fun x t h i => graggStage f x t (h / m) i,
        fun x t h i _ => graggStage_rk f m hw.1 x t h i, fun x t h => graggValue_rk f m hw.1 x t h⟩,
      fun x t φ hf hφ => graggValue_order m hw.1 hf hφ⟩

end Verif
