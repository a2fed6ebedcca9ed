import Mathlib.Analysis.Analytic.Basic
import Mathlib.Analysis.Calculus.TaylorIntegral
import Mathlib.Analysis.Calculus.MeanValue
import Mathlib.Analysis.Asymptotics.Lemmas
import Mathlib.Data.List.GetD

/-!
# Expansions in powers of the step size

The coefficients of the composition of a function that has a Taylor polynomial with a curve, in a form without partitions: the multilinear
forms are applied to lists.
-/

set_option linter.unusedSectionVars false

namespace Verif.BSeries
open Asymptotics Filter Topology Finset
variable {V : Type*} [NormedAddCommGroup V] [NormedSpace ℝ V]

/-! ## Multilinear forms on lists -/

/-- a family of bounded multilinear forms, applied to lists -/
structure Form (P : List V → V) : Prop where
  add : ∀ l₁ l₂ a b, P (l₁ ++ (a + b) :: l₂) = P (l₁ ++ a :: l₂) + P (l₁ ++ b :: l₂)
  smul : ∀ l₁ l₂ (c : ℝ) a, P (l₁ ++ (c • a) :: l₂) = c • P (l₁ ++ a :: l₂)
  bound : ∀ n, ∃ C, 0 ≤ C ∧ ∀ l : List V, l.length = n → ‖P l‖ ≤ C * (l.map fun v => ‖v‖).prod

theorem Form.zero {P : List V → V} (h : Form P) (l₁ l₂ : List V) : P (l₁ ++ 0 :: l₂) = 0 := by
  have := h.smul l₁ l₂ 0 0
  simpa using this

theorem Form.sum {P : List V → V} (h : Form P) (l₁ l₂ : List V) {ι : Type*} (s : Finset ι) (g : ι → V) :
    P (l₁ ++ (∑ i ∈ s, g i) :: l₂) = ∑ i ∈ s, P (l₁ ++ g i :: l₂) := by
  classical
  induction s using Finset.induction_on with
  | empty => simpa using h.zero l₁ l₂
  | insert a s ha ih => rw [Finset.sum_insert ha, Finset.sum_insert ha, h.add, ih]

/-- a formal multilinear series applied to a list -/
noncomputable def app (p : FormalMultilinearSeries ℝ V V) (l : List V) : V := p l.length fun i => l.getD i 0

theorem app_update (p : FormalMultilinearSeries ℝ V V) (l₁ l₂ : List V) (x : V) :
    app p (l₁ ++ x :: l₂) = p (l₁.length + (l₂.length + 1))
      (Function.update (fun i : Fin (l₁.length + (l₂.length + 1)) => (l₁ ++ 0 :: l₂).getD i 0) ⟨l₁.length, by omega⟩ x) := by
  have key : ∀ n (hn : (l₁ ++ x :: l₂).length = n), app p (l₁ ++ x :: l₂) = p n fun i => (l₁ ++ x :: l₂).getD i 0 := by
    intro n hn; subst hn; rfl
  rw [key (l₁.length + (l₂.length + 1)) (by simp)]
  congr 1
  funext i
  by_cases hi : i = ⟨l₁.length, by omega⟩
  · subst hi
    simp
  · rw [Function.update_of_ne hi]
    have hi' : (i : ℕ) ≠ l₁.length := fun h => hi (Fin.ext h)
    rcases Nat.lt_or_ge i l₁.length with h | h
    · rw [List.getD_append _ _ _ _ h, List.getD_append _ _ _ _ h]
    · rw [List.getD_append_right _ _ _ _ h, List.getD_append_right _ _ _ _ h]
      obtain ⟨k, hk⟩ : ∃ k, (i : ℕ) - l₁.length = k + 1 := ⟨i - l₁.length - 1, by omega⟩
      rw [hk]
      simp

theorem app_form (p : FormalMultilinearSeries ℝ V V) : Form (app p) where
  add l₁ l₂ a b := by rw [app_update, app_update, app_update, ContinuousMultilinearMap.map_update_add]
  smul l₁ l₂ c a := by rw [app_update, app_update, ContinuousMultilinearMap.map_update_smul]
  bound n := by
    refine ⟨‖p n‖, norm_nonneg _, fun l hl => ?_⟩
    subst hl
    refine ((p l.length).le_opNorm _).trans (le_of_eq ?_)
    congr 1
    rw [← List.prod_ofFn]
    congr 1
    refine List.ext_getElem (by simp) fun i h1 h2 => ?_
    simp

theorem app_replicate (p : FormalMultilinearSeries ℝ V V) (m : ℕ) (y : V) :
    app p (List.replicate m y) = p m fun _ => y := by
  have key : ∀ n (hn : (List.replicate m y).length = n), app p (List.replicate m y) =
      p n fun i => (List.replicate m y).getD i 0 := by
    intro n hn; subst hn; rfl
  rw [key m (by simp)]
  congr 1
  funext i
  simp [List.getD_eq_getElem?_getD]

/-! ## Expansions -/

/-- `y h = c 0 + h c 1 + ... + h^n c n + O(h^(n+1))` -/
def Exp (y : ℝ → V) (c : ℕ → V) (n : ℕ) : Prop :=
  (fun h : ℝ => y h - ∑ s ∈ range (n + 1), h ^ s • c s) =O[𝓝 0] fun h : ℝ => h ^ (n + 1)

theorem pow_isBigO {m n : ℕ} (h : n ≤ m) : (fun x : ℝ => x ^ m) =O[𝓝 0] fun x : ℝ => x ^ n := by
  have h1 : (fun x : ℝ => x ^ (m - n)) =O[𝓝 0] fun _ : ℝ => (1 : ℝ) :=
    (continuous_id.pow (m - n)).continuousAt.isBigO_one ℝ
  have := h1.mul (isBigO_refl (fun x : ℝ => x ^ n) (𝓝 0))
  refine (this.congr (fun x => ?_) fun x => ?_)
  · rw [← pow_add]; congr 1; omega
  · simp

theorem monomial_isBigO {m n : ℕ} (h : n ≤ m) (c : V) : (fun x : ℝ => x ^ m • c) =O[𝓝 0] fun x : ℝ => x ^ n := by
  refine IsBigO.trans (IsBigO.of_bound ‖c‖ (Eventually.of_forall fun x => ?_)) (pow_isBigO h)
  rw [norm_smul, mul_comm]

theorem Exp.mono {y : ℝ → V} {c : ℕ → V} {m n : ℕ} (h : Exp y c m) (hn : n ≤ m) : Exp y c n := by
  unfold Exp at *
  have e : (fun x : ℝ => y x - ∑ s ∈ range (n + 1), x ^ s • c s) =
      fun x : ℝ => (y x - ∑ s ∈ range (m + 1), x ^ s • c s) + ∑ s ∈ Ico (n + 1) (m + 1), x ^ s • c s := by
    funext x
    rw [← Finset.sum_range_add_sum_Ico _ (by omega : n + 1 ≤ m + 1)]
    abel
  rw [e]
  refine (h.trans (pow_isBigO (by omega))).add (IsBigO.fun_sum fun s hs => ?_)
  exact monomial_isBigO (Finset.mem_Ico.1 hs).1 _

theorem Exp.congr {y y' : ℝ → V} {c c' : ℕ → V} {n : ℕ} (h : Exp y c n) (hy : ∀ x, y x = y' x) (hc : ∀ s ≤ n, c s = c' s) :
    Exp y' c' n := by
  unfold Exp at *
  refine h.congr_left fun x => ?_
  rw [hy, Finset.sum_congr rfl fun s hs => by rw [hc s (by have := Finset.mem_range.1 hs; omega)]]

theorem Exp.congr' {y y' : ℝ → V} {c c' : ℕ → V} {n : ℕ} (h : Exp y c n) (hy : y =ᶠ[𝓝 0] y') (hc : ∀ s ≤ n, c s = c' s) :
    Exp y' c' n := by
  unfold Exp at *
  refine h.congr' (hy.mono fun x hx => ?_) (EventuallyEq.refl _ _)
  simp only []
  rw [hx, Finset.sum_congr rfl fun s hs => by rw [hc s (by have := Finset.mem_range.1 hs; omega)]]

theorem Exp.sum {ι : Type*} (S : Finset ι) {y : ι → ℝ → V} {c : ι → ℕ → V} {n : ℕ} (h : ∀ i ∈ S, Exp (y i) (c i) n) (a : ι → ℝ) :
    Exp (fun x => ∑ i ∈ S, a i • y i x) (fun s => ∑ i ∈ S, a i • c i s) n := by
  unfold Exp at *
  have e : (fun x : ℝ => ∑ i ∈ S, a i • y i x - ∑ s ∈ range (n + 1), x ^ s • ∑ i ∈ S, a i • c i s) =
      fun x : ℝ => ∑ i ∈ S, a i • (y i x - ∑ s ∈ range (n + 1), x ^ s • c i s) := by
    funext x
    simp only [smul_sub, Finset.sum_sub_distrib, Finset.smul_sum]
    rw [Finset.sum_comm]
    congr 1
    refine Finset.sum_congr rfl fun i _ => Finset.sum_congr rfl fun s _ => ?_
    rw [smul_comm]
  rw [e]
  exact IsBigO.fun_sum fun i hi => (h i hi).const_smul_left (a i)

/-- multiplication by `h` shifts the coefficients -/
theorem Exp.shift {y : ℝ → V} {c : ℕ → V} {n : ℕ} (h : Exp y c n) :
    Exp (fun x => x • y x) (fun s => match s with | 0 => 0 | s + 1 => c s) (n + 1) := by
  unfold Exp at *
  have e : (fun x : ℝ => x • y x - ∑ s ∈ range (n + 1 + 1), x ^ s • (match s with | 0 => (0 : V) | s + 1 => c s)) =
      fun x : ℝ => x • (y x - ∑ s ∈ range (n + 1), x ^ s • c s) := by
    funext x
    rw [Finset.sum_range_succ', smul_sub, Finset.smul_sum]
    simp only [smul_zero, add_zero]
    congr 1
    refine Finset.sum_congr rfl fun s _ => ?_
    rw [smul_smul, pow_succ, mul_comm]
  rw [e]
  have := (isBigO_refl (fun x : ℝ => x) (𝓝 0)).smul h
  refine this.congr_right fun x => ?_
  rw [smul_eq_mul, pow_succ (n := n + 1), mul_comm]

theorem Exp.isBigO_id {y : ℝ → V} {c : ℕ → V} {n : ℕ} (h : Exp y c n) (h0 : c 0 = 0) : y =O[𝓝 0] fun x : ℝ => x := by
  have := h.mono (Nat.zero_le n)
  unfold Exp at this
  simpa [h0] using this

/-- two curves with the same coefficients -/
theorem Exp.sub {y z : ℝ → V} {c c' : ℕ → V} {n : ℕ} (hy : Exp y c n) (hz : Exp z c' n) (hc : ∀ s ≤ n, c s = c' s) :
    (fun x => y x - z x) =O[𝓝 0] fun x : ℝ => x ^ (n + 1) := by
  have := (hy.congr (fun _ => rfl) hc)
  unfold Exp at this hz
  refine (IsBigO.sub this hz).congr_left fun x => ?_
  abel

/-! ## Composition -/

/-- the coefficient of `h^q` in `P (acc ++ [y, ..., y])`, summed over the number of arguments `y h = h c 1 + h^2 c 2 + ...` -/
def coef (P : List V → V) (c : ℕ → V) : ℕ → List V → V
  | 0, acc => P acc
  | q + 1, acc => ∑ s : Fin (q + 1), coef P c (q - s) (acc ++ [c (s + 1)])
termination_by q => q
decreasing_by omega

theorem coef_zero (P : List V → V) (c : ℕ → V) (acc : List V) : coef P c 0 acc = P acc := by rw [coef]

theorem coef_succ (P : List V → V) (c : ℕ → V) (q : ℕ) (acc : List V) :
    coef P c (q + 1) acc = ∑ s ∈ range (q + 1), coef P c (q - s) (acc ++ [c (s + 1)]) := by
  rw [coef, Finset.sum_range]

theorem form_isBigO {P : List V → V} (hP : Form P) (acc : List V) {y : ℝ → V} (hy : y =O[𝓝 0] fun x : ℝ => x) (m : ℕ) :
    (fun x => P (acc ++ List.replicate m (y x))) =O[𝓝 0] fun x : ℝ => x ^ m := by
  obtain ⟨C, hC, hb⟩ := hP.bound (acc.length + m)
  have h1 : (fun x => P (acc ++ List.replicate m (y x))) =O[𝓝 0] fun x => ‖y x‖ ^ m := by
    refine IsBigO.of_bound (C * (acc.map fun v => ‖v‖).prod) (Eventually.of_forall fun x => ?_)
    refine (hb _ (by simp)).trans (le_of_eq ?_)
    rw [List.map_append, List.prod_append, List.map_replicate, List.prod_replicate, norm_pow, norm_norm]
    ring
  exact h1.trans ((hy.norm_left).pow m)

theorem form_isBigO' {P : List V → V} (hP : Form P) (acc : List V) {y r : ℝ → V} {n : ℕ} (hy : y =O[𝓝 0] fun x : ℝ => x)
    (hr : r =O[𝓝 0] fun x : ℝ => x ^ n) (m : ℕ) :
    (fun x => P (acc ++ r x :: List.replicate m (y x))) =O[𝓝 0] fun x : ℝ => x ^ n := by
  obtain ⟨C, hC, hb⟩ := hP.bound (acc.length + (m + 1))
  have h1 : (fun x => P (acc ++ r x :: List.replicate m (y x))) =O[𝓝 0] fun x => ‖r x‖ * ‖y x‖ ^ m := by
    refine IsBigO.of_bound (C * (acc.map fun v => ‖v‖).prod) (Eventually.of_forall fun x => ?_)
    refine (hb _ (by simp)).trans (le_of_eq ?_)
    rw [List.map_append, List.prod_append, List.map_cons, List.prod_cons, List.map_replicate, List.prod_replicate, norm_mul,
      norm_pow, norm_norm, norm_norm]
    ring
  have h2 : (fun x => ‖r x‖ * ‖y x‖ ^ m) =O[𝓝 0] fun x : ℝ => x ^ n * x ^ m := (hr.norm_left).mul ((hy.norm_left).pow m)
  refine (h1.trans h2).trans ?_
  have := pow_isBigO (show n ≤ n + m by omega)
  simpa [pow_add] using this

theorem form_expand {P : List V → V} (hP : Form P) {y : ℝ → V} {c : ℕ → V} (h0 : c 0 = 0) : ∀ N, Exp y c N → ∀ acc,
    Exp (fun x => ∑ m ∈ range (N + 1), P (acc ++ List.replicate m (y x))) (fun q => coef P c q acc) N := by
  intro N
  induction N using Nat.strong_induction_on with
  | _ N ih =>
    intro hy acc
    have hid := hy.isBigO_id h0
    unfold Exp
    set r : ℝ → V := fun x => y x - ∑ s ∈ range (N + 1), x ^ s • c s with hr
    have hrO : r =O[𝓝 0] fun x : ℝ => x ^ (N + 1) := hy
    have e : (fun x : ℝ => ∑ m ∈ range (N + 1), P (acc ++ List.replicate m (y x)) -
          ∑ q ∈ range (N + 1), x ^ q • coef P c q acc) =
        fun x : ℝ => (∑ s ∈ range N, x ^ (s + 1) • ((∑ m ∈ range (N - s), P ((acc ++ [c (s + 1)]) ++ List.replicate m (y x)) -
            ∑ j ∈ range (N - s), x ^ j • coef P c j (acc ++ [c (s + 1)])) +
            ∑ m ∈ Ico (N - s) N, P ((acc ++ [c (s + 1)]) ++ List.replicate m (y x)))) +
          ∑ m ∈ range N, P (acc ++ r x :: List.replicate m (y x)) := by
      funext x
      have hyx : y x = ∑ s ∈ range N, x ^ (s + 1) • c (s + 1) + r x := by
        simp only [hr]
        rw [Finset.sum_range_succ', h0]
        simp
      have a1 : ∀ m, P (acc ++ List.replicate (m + 1) (y x)) =
          ∑ s ∈ range N, x ^ (s + 1) • P ((acc ++ [c (s + 1)]) ++ List.replicate m (y x)) +
            P (acc ++ r x :: List.replicate m (y x)) := by
        intro m
        rw [List.replicate_succ]
        conv_lhs => rw [show P (acc ++ y x :: List.replicate m (y x)) =
          P (acc ++ (∑ s ∈ range N, x ^ (s + 1) • c (s + 1) + r x) :: List.replicate m (y x)) by rw [← hyx]]
        rw [hP.add, hP.sum]
        congr 1
        refine Finset.sum_congr rfl fun s _ => ?_
        rw [hP.smul]
        simp
      have a2 : ∑ q ∈ range N, x ^ (q + 1) • coef P c (q + 1) acc =
          ∑ s ∈ range N, x ^ (s + 1) • ∑ j ∈ range (N - s), x ^ j • coef P c j (acc ++ [c (s + 1)]) := by
        have := Finset.sum_range_diag_flip N (fun s j => (x ^ (s + 1) * x ^ j) • coef P c j (acc ++ [c (s + 1)]))
        calc ∑ q ∈ range N, x ^ (q + 1) • coef P c (q + 1) acc
            = ∑ q ∈ range N, ∑ s ∈ range (q + 1), (x ^ (s + 1) * x ^ (q - s)) • coef P c (q - s) (acc ++ [c (s + 1)]) := by
              refine Finset.sum_congr rfl fun q _ => ?_
              rw [coef_succ, Finset.smul_sum]
              refine Finset.sum_congr rfl fun s hs => ?_
              have := Finset.mem_range.1 hs
              rw [← pow_add]
              congr 2
              omega
          _ = _ := by
              rw [this]
              refine Finset.sum_congr rfl fun s _ => ?_
              rw [Finset.smul_sum]
              refine Finset.sum_congr rfl fun j _ => ?_
              rw [smul_smul]
      rw [Finset.sum_range_succ', Finset.sum_range_succ' (fun q => x ^ q • coef P c q acc), a2,
        Finset.sum_congr rfl fun m _ => a1 m, Finset.sum_add_distrib, Finset.sum_comm, coef_zero]
      have a3 : ∀ s ∈ range N, ∑ m ∈ range N, x ^ (s + 1) • P ((acc ++ [c (s + 1)]) ++ List.replicate m (y x)) =
          x ^ (s + 1) • (∑ m ∈ range (N - s), P ((acc ++ [c (s + 1)]) ++ List.replicate m (y x)) +
            ∑ m ∈ Ico (N - s) N, P ((acc ++ [c (s + 1)]) ++ List.replicate m (y x))) := by
        intro s _
        rw [Finset.sum_range_add_sum_Ico _ (by omega : N - s ≤ N), Finset.smul_sum]
      rw [Finset.sum_congr rfl a3]
      simp only [List.replicate_zero, List.append_nil, pow_zero, one_smul, smul_add, smul_sub, Finset.sum_add_distrib,
        Finset.sum_sub_distrib]
      abel
    rw [e]
    refine IsBigO.add (IsBigO.fun_sum fun s hs => ?_) (IsBigO.fun_sum fun m _ => form_isBigO' hP acc hid hrO m)
    have hs' := Finset.mem_range.1 hs
    have hN : N + 1 = (s + 1) + (N - s) := by omega
    have main : (fun x : ℝ => (∑ m ∈ range (N - s), P ((acc ++ [c (s + 1)]) ++ List.replicate m (y x)) -
            ∑ j ∈ range (N - s), x ^ j • coef P c j (acc ++ [c (s + 1)])) +
            ∑ m ∈ Ico (N - s) N, P ((acc ++ [c (s + 1)]) ++ List.replicate m (y x))) =O[𝓝 0] fun x : ℝ => x ^ (N - s) := by
      refine IsBigO.add ?_ (IsBigO.fun_sum fun m hm => ?_)
      · have := ih (N - s - 1) (by omega) (hy.mono (by omega)) (acc ++ [c (s + 1)])
        unfold Exp at this
        rwa [show N - s - 1 + 1 = N - s by omega] at this
      · exact (form_isBigO hP _ hid m).trans (pow_isBigO (Finset.mem_Ico.1 hm).1)
    have := (isBigO_refl (fun x : ℝ => x ^ (s + 1)) (𝓝 0)).smul main
    refine this.congr_right fun x => ?_
    rw [smul_eq_mul, ← pow_add, hN]

/-- `f (x0 + y) = p_0 + p_1 y + ... + p_{n-1} y^{n-1} + O(|y|^n)` -/
def TaylorAt (f : V → V) (p : FormalMultilinearSeries ℝ V V) (x0 : V) (n : ℕ) : Prop :=
  (fun y : V => f (x0 + y) - p.partialSum n y) =O[𝓝 0] fun y => ‖y‖ ^ n

theorem comp_expand {f : V → V} {p : FormalMultilinearSeries ℝ V V} {x0 : V} {N : ℕ} (hf : TaylorAt f p x0 (N + 1))
    {y : ℝ → V} {c : ℕ → V} (h0 : c 0 = 0) (hy : Exp y c N) :
    Exp (fun x => f (x0 + y x)) (fun q => coef (app p) c q []) N := by
  have h1 := form_expand (app_form p) h0 N hy []
  have hid := hy.isBigO_id h0
  have hlim : Tendsto y (𝓝 0) (𝓝 0) := hid.trans_tendsto tendsto_id
  have h2 := hf.comp_tendsto hlim
  have h3 : ((fun y : V => ‖y‖ ^ (N + 1)) ∘ y) =O[𝓝 0] fun x : ℝ => x ^ (N + 1) := (hid.norm_left).pow (N + 1)
  unfold Exp at *
  refine ((h2.trans h3).add h1).congr_left fun x => ?_
  simp only [Function.comp, FormalMultilinearSeries.partialSum, List.nil_append, app_replicate]
  abel

/-! ## Integration -/

theorem integrate_isBigO {z z' : ℝ → V} (hz : ∀ᶠ x in 𝓝 (0 : ℝ), HasDerivAt z (z' x) x) (h0 : z 0 = 0) {n : ℕ}
    (hO : z' =O[𝓝 0] fun x : ℝ => x ^ n) : z =O[𝓝 0] fun x : ℝ => x ^ (n + 1) := by
  obtain ⟨C, hC⟩ := hO.bound
  obtain ⟨ε, hε, hball⟩ := Metric.eventually_nhds_iff_ball.1 (hz.and hC)
  refine IsBigO.of_bound C ?_
  refine Metric.eventually_nhds_iff_ball.2 ⟨ε, hε, fun x hx => ?_⟩
  have hx' : |x| < ε := by simpa using hx
  have hsub : ∀ y ∈ Metric.closedBall (0 : ℝ) |x|, y ∈ Metric.ball (0 : ℝ) ε := by
    intro y hy
    have : |y| ≤ |x| := by simpa using hy
    simpa using lt_of_le_of_lt this hx'
  have hC0 : ∀ y ∈ Metric.closedBall (0 : ℝ) |x|, ‖z' y‖ ≤ C * |x| ^ n ∨ C < 0 := by
    intro y hy
    rcases lt_or_ge C 0 with h | h
    · exact Or.inr h
    · left
      have h1 := (hball y (hsub y hy)).2
      have : |y| ≤ |x| := by simpa using hy
      refine h1.trans ?_
      rw [norm_pow, Real.norm_eq_abs]
      gcongr
  rcases lt_or_ge C 0 with hneg | hpos
  · have h1 := (hball 0 (by simpa using hε)).2
    have h2 := (hball x hx).2
    have hz0 : ‖z' x‖ = 0 ∧ x ^ n = 0 := by
      have : 0 ≤ C * ‖x ^ n‖ := (norm_nonneg _).trans h2
      have h3 : ‖x ^ n‖ ≤ 0 := by
        by_contra hne
        push Not at hne
        nlinarith
      have h4 := le_antisymm h3 (norm_nonneg _)
      refine ⟨le_antisymm (by rw [h4] at h2; simpa using h2) (norm_nonneg _), by simpa using h4⟩
    have hx0 : x = 0 := by
      rcases Nat.eq_zero_or_pos n with rfl | hn
      · simp at hz0
      · exact pow_eq_zero_iff (by omega) |>.1 hz0.2
    subst hx0
    simp [h0]
  · have hconv : Convex ℝ (Metric.closedBall (0 : ℝ) |x|) := convex_closedBall _ _
    have := hconv.norm_image_sub_le_of_norm_hasDerivWithin_le (f := z) (f' := z') (C := C * |x| ^ n)
      (fun y hy => (hball y (hsub y hy)).1.hasDerivWithinAt)
      (fun y hy => (hC0 y hy).resolve_right (not_lt.2 hpos)) (x := 0) (y := x) (by simp) (by simp)
    rw [h0, sub_zero, sub_zero] at this
    refine this.trans (le_of_eq ?_)
    rw [norm_pow, Real.norm_eq_abs, pow_succ]
    ring

/-- the expansion of an antiderivative -/
theorem Exp.integrate {y y' : ℝ → V} {c : ℕ → V} {n : ℕ} (hd : ∀ᶠ x in 𝓝 (0 : ℝ), HasDerivAt y (y' x) x) (h0 : y 0 = 0)
    (h : Exp y' c n) :
    Exp y (fun s => match s with | 0 => 0 | s + 1 => (1 / ((s : ℝ) + 1)) • c s) (n + 1) := by
  unfold Exp at *
  have e : ∀ x : ℝ, ∑ s ∈ range (n + 1 + 1), x ^ s • (match s with | 0 => (0 : V) | s + 1 => (1 / ((s : ℝ) + 1)) • c s) =
      ∑ s ∈ range (n + 1), x ^ (s + 1) • (1 / ((s : ℝ) + 1)) • c s := by
    intro x
    rw [Finset.sum_range_succ']
    simp
  simp only [e]
  refine integrate_isBigO (z' := fun x => y' x - ∑ s ∈ range (n + 1), x ^ s • c s) (hd.mono fun x hx => ?_) ?_ h
  · refine hx.sub ?_
    refine HasDerivAt.fun_sum fun s _ => ?_
    have h1 := (hasDerivAt_pow (s + 1) x).smul_const ((1 / ((s : ℝ) + 1)) • c s)
    refine h1.congr_deriv ?_
    rw [smul_smul]
    congr 1
    have : ((s : ℝ) + 1) ≠ 0 := by positivity
    push_cast
    field_simp
  · simp [h0]

end Verif.BSeries
