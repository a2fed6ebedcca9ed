import Verif.Lemmas.GlobalError
import Verif.Props.AdamsOrder
import Mathlib.Analysis.Calculus.Taylor

/-! # The error of multistep formulas -/

namespace Verif
open Finset Filter Topology Asymptotics

/-- The accumulation of errors in a method with `N` steps: each error is bounded by the largest one before, and the first `N-1` steps are made by
another method. -/
theorem multistep_growth {N r : ℕ} {Λ M M' T h : ℝ} (hΛ : 0 ≤ Λ) (hM : 0 ≤ M) (hM' : 0 ≤ M') (hh : 0 ≤ h) (e : ℕ → ℝ) (n : ℕ) (he : 0 ≤ e 0)
    (hstep : ∀ i < n, ∀ E, (∀ j ≤ i, e j ≤ E) → e (i + 1) ≤ (1 + Λ * h) * E + (M * h ^ (r + 1) + if i + 1 < N then M' * h ^ r else 0))
    (hT : n * h ≤ T) : e n ≤ Real.exp (Λ * T) * (e 0 + (M * T + N * M') * h ^ r) := by
  set B : ℕ → ℝ := fun k => Real.exp (Λ * (k * h)) * (e 0 + (M * (k * h) + min (k : ℝ) N * M') * h ^ r) with hB
  have hp : 0 ≤ h ^ r := pow_nonneg hh r
  have hmono : ∀ i j : ℕ, i ≤ j → B i ≤ B j := by
    intro i j hij
    have hij' : (i : ℝ) ≤ j := by exact_mod_cast hij
    have hmin : min (i : ℝ) N ≤ min (j : ℝ) N := min_le_min_right _ hij'
    have h0 : 0 ≤ min (i : ℝ) N := le_min (Nat.cast_nonneg _) (Nat.cast_nonneg _)
    have h1 : (i : ℝ) * h ≤ j * h := mul_le_mul_of_nonneg_right hij' hh
    have h2 : 0 ≤ (i : ℝ) * h := mul_nonneg (Nat.cast_nonneg _) hh
    simp only [hB]
    gcongr
  have key : ∀ k ≤ n, e k ≤ B k := by
    intro k
    induction k using Nat.strong_induction_on with
    | _ k ih =>
      intro hk
      cases k with
      | zero => simp [hB]
      | succ k =>
        have hE := hstep k (by omega) (B k) fun j hj => (ih j (by omega) (by omega)).trans (hmono j k hj)
        refine hE.trans ?_
        have h1 : 1 + Λ * h ≤ Real.exp (Λ * h) := by linarith [Real.add_one_le_exp (Λ * h)]
        have h2 : Real.exp (Λ * (((k + 1 : ℕ) : ℝ) * h)) = Real.exp (Λ * h) * Real.exp (Λ * (k * h)) := by
          rw [← Real.exp_add]; congr 1; push_cast; ring
        have h3 : 1 ≤ Real.exp (Λ * (((k + 1 : ℕ) : ℝ) * h)) := Real.one_le_exp (by positivity)
        have h0 : 0 ≤ min (k : ℝ) N := le_min (Nat.cast_nonneg _) (Nat.cast_nonneg _)
        have hBk : 0 ≤ B k := by simp only [hB]; positivity
        have hδ : 0 ≤ M * h ^ (r + 1) + if k + 1 < N then M' * h ^ r else 0 := by
          split <;> positivity
        have h4 : (1 + Λ * h) * B k ≤ Real.exp (Λ * (((k + 1 : ℕ) : ℝ) * h)) * (e 0 + (M * (k * h) + min (k : ℝ) N * M') * h ^ r) := by
          rw [h2, mul_assoc]
          exact mul_le_mul_of_nonneg_right h1 hBk
        have h5 : (M * h ^ (r + 1) + if k + 1 < N then M' * h ^ r else 0) ≤ Real.exp (Λ * (((k + 1 : ℕ) : ℝ) * h)) *
            (M * h ^ (r + 1) + if k + 1 < N then M' * h ^ r else 0) := le_mul_of_one_le_left hδ h3
        refine (add_le_add h4 h5).trans ?_
        rw [← mul_add]
        refine mul_le_mul_of_nonneg_left ?_ (Real.exp_pos _).le
        have h6 : (if k + 1 < N then M' * h ^ r else 0) ≤ (min ((k + 1 : ℕ) : ℝ) N - min (k : ℝ) N) * M' * h ^ r := by
          split
          · rename_i hlt
            rw [min_eq_left (by exact_mod_cast hlt.le), min_eq_left (by exact_mod_cast (by omega : k ≤ N))]
            push_cast
            apply le_of_eq
            ring
          · have : min (k : ℝ) N ≤ min ((k + 1 : ℕ) : ℝ) N := min_le_min_right _ (by push_cast; linarith)
            have : 0 ≤ min ((k + 1 : ℕ) : ℝ) N - min (k : ℝ) N := by linarith
            positivity
        have h7 : M * ((k + 1 : ℕ) * h) * h ^ r = M * (k * h) * h ^ r + M * h ^ (r + 1) := by push_cast; ring
        nlinarith
  refine (key n le_rfl).trans ?_
  have h1 : 0 ≤ (n : ℝ) * h := mul_nonneg (Nat.cast_nonneg _) hh
  have h2 : min (n : ℝ) N ≤ N := min_le_right _ _
  have h0 : 0 ≤ min (n : ℝ) N := le_min (Nat.cast_nonneg _) (Nat.cast_nonneg _)
  simp only [hB]
  gcongr

variable {V : Type} [NormedAddCommGroup V] [NormedSpace ℝ V]

/-- Taylor's formula -/
theorem taylor_poly {φ : ℝ → V} {n : ℕ} (hφ : ContDiff ℝ (n + 1 : ℕ) φ) (t : ℝ) :
    (fun s => φ (t + s) - ∑ m ∈ range (n + 1), s ^ m • ((m.factorial : ℝ)⁻¹ • iteratedDeriv m φ t)) =O[𝓝 0] fun s : ℝ => s ^ (n + 1) := by
  have h := (taylor_isLittleO_univ (x₀ := t) hφ).isBigO
  have hc : Tendsto (fun s : ℝ => t + s) (𝓝 0) (𝓝 t) := by
    have := (by fun_prop : Continuous fun s : ℝ => t + s).tendsto 0
    simpa using this
  have h' := h.comp_tendsto hc
  have e : (fun s => φ (t + s) - ∑ m ∈ range (n + 1), s ^ m • ((m.factorial : ℝ)⁻¹ • iteratedDeriv m φ t)) =
      fun s => (φ (t + s) - taylorWithinEval φ (n + 1) Set.univ t (t + s)) + s ^ (n + 1) • (((n + 1).factorial : ℝ)⁻¹ • iteratedDeriv (n + 1) φ t) := by
    funext s
    rw [taylor_within_apply, sum_range_succ _ (n + 1)]
    simp only [iteratedDerivWithin_univ, add_sub_cancel_left]
    have : ∀ m, s ^ m • ((m.factorial : ℝ)⁻¹ • iteratedDeriv m φ t) = ((m.factorial : ℝ)⁻¹ * s ^ m) • iteratedDeriv m φ t := fun m => by
      rw [smul_smul, mul_comm]
    simp only [this]
    abel
  rw [e]
  refine IsBigO.add ?_ ?_
  · refine h'.congr_right fun s => ?_
    simp
  · refine IsBigO.of_bound ‖(((n + 1).factorial : ℝ)⁻¹ • iteratedDeriv (n + 1) φ t)‖ (Eventually.of_forall fun s => ?_)
    rw [norm_smul, mul_comm]

theorem abFormula_sum (coef : List ℝ) (x : V) (dt : ℝ) (ks : List V) (h : coef.length ≤ ks.length) :
    abFormula coef x dt ks = x + dt • ∑ j ∈ range coef.length, coef.getD j 0 • ks.getD j 0 := by
  unfold abFormula
  rw [show (fun c : ℝ => dt * c) = fun c => c * dt from funext fun c => mul_comm _ _, lin_row x dt coef ks h]

/-- sum of the absolute values of the coefficients -/
noncomputable def absSum (coef : List ℝ) : ℝ := ∑ j ∈ range coef.length, |coef.getD j 0|

theorem absSum_nonneg (coef : List ℝ) : 0 ≤ absSum coef := sum_nonneg fun _ _ => abs_nonneg _

/-- the formula depends on the derivatives in a Lipschitz continuous way -/
theorem abFormula_close (coef : List ℝ) (x y : V) (dt : ℝ) (ks ls : List V) (hk : coef.length ≤ ks.length) (hl : coef.length ≤ ls.length) (E : ℝ)
    (hE : ∀ j < coef.length, ‖ks.getD j 0 - ls.getD j 0‖ ≤ E) :
    ‖abFormula coef x dt ks - abFormula coef y dt ls‖ ≤ ‖x - y‖ + |dt| * (absSum coef * E) := by
  rw [abFormula_sum _ _ _ _ hk, abFormula_sum _ _ _ _ hl, add_sub_add_comm, ← smul_sub, ← sum_sub_distrib]
  refine (norm_add_le _ _).trans (add_le_add_right ?_ _)
  rw [norm_smul, Real.norm_eq_abs]
  refine mul_le_mul_of_nonneg_left ((norm_sum_le _ _).trans ?_) (abs_nonneg _)
  rw [absSum, sum_mul]
  refine sum_le_sum fun j hj => ?_
  rw [← smul_sub, norm_smul, Real.norm_eq_abs]
  exact mul_le_mul_of_nonneg_left (hE j (mem_range.1 hj)) (abs_nonneg _)

/-- The truncation error of a formula that is exact for polynomials of degree `N`; its nodes are `t + ( a - j ) dt`. -/
theorem formula_truncation {N : ℕ} (coef : List ℝ) (a : ℝ)
    (hex : ∀ (v : ℕ → V) (x : V) (t dt : ℝ), abFormula coef x dt ((List.range coef.length).map fun j : ℕ => polyDeriv v N (t + (a - j) * dt)) =
      x + (poly v N (t + dt) - poly v N t)) (hN : 1 ≤ N) {φ : ℝ → V} (hφ : ContDiff ℝ (N + 1 : ℕ) φ) (t : ℝ) :
    (fun h => abFormula coef (φ t) h ((List.range coef.length).map fun j : ℕ => deriv φ (t + (a - j) * h)) - φ (t + h)) =O[𝓝 0]
      fun h : ℝ => h ^ (N + 1) := by
  obtain ⟨n, rfl⟩ : ∃ n, N = n + 1 := ⟨N - 1, by omega⟩
  set v : ℕ → V := fun m => (m.factorial : ℝ)⁻¹ • iteratedDeriv m φ t with hv
  have T1 := taylor_poly (n := n + 1) hφ t
  have T2 := taylor_poly (φ := deriv φ) (n := n) (by
    have := (contDiff_succ_iff_deriv (n := (n + 1 : ℕ))).1 (by exact_mod_cast hφ)
    exact this.2.2) t
  have e2 : ∀ s : ℝ, ∑ m ∈ range (n + 1), s ^ m • ((m.factorial : ℝ)⁻¹ • iteratedDeriv m (deriv φ) t) = polyDeriv v (n + 1) s := by
    intro s
    rw [polyDeriv, sum_range_succ' _ (n + 1)]
    rw [Nat.cast_zero, zero_mul, zero_smul, add_zero]
    refine sum_congr rfl fun m _ => ?_
    simp only [hv, add_tsub_cancel_right]
    rw [smul_smul, smul_smul, iteratedDeriv_succ']
    congr 1
    rw [Nat.factorial_succ]
    have : ((m + 1 : ℕ) : ℝ) ≠ 0 := by positivity
    push_cast at *
    field_simp
  simp only [e2] at T2
  have H : ∀ h : ℝ, abFormula coef (φ t) h ((List.range coef.length).map fun j : ℕ => deriv φ (t + (a - j) * h)) - φ (t + h) =
      h • (∑ j ∈ range coef.length, coef.getD j 0 • (deriv φ (t + (a - j) * h) - polyDeriv v (n + 1) ((a - j) * h))) -
        (φ (t + h) - ∑ m ∈ range (n + 1 + 1), h ^ m • ((m.factorial : ℝ)⁻¹ • iteratedDeriv m φ t)) := by
    intro h
    have h1 := hex v (φ t) 0 h
    have h0 : poly v (n + 1) (0 : ℝ) = φ t := by
      rw [poly, sum_range_succ']
      simp [hv]
    have getD : ∀ (g : ℕ → V) (j : ℕ), j < coef.length → (((List.range coef.length).map g).getD j 0) = g j := by
      intro g j hj
      simp [List.getD, hj]
    rw [h0] at h1
    simp only [zero_add] at h1
    have h2 : poly v (n + 1) h = abFormula coef (φ t) h ((List.range coef.length).map fun j : ℕ => polyDeriv v (n + 1) ((a - j) * h)) := by
      rw [h1]; abel
    have h3 : ∑ m ∈ range (n + 1 + 1), h ^ m • ((m.factorial : ℝ)⁻¹ • iteratedDeriv m φ t) = poly v (n + 1) h := rfl
    have h4 : ∀ g : ℕ → V, abFormula coef (φ t) h ((List.range coef.length).map g) = φ t + h • ∑ j ∈ range coef.length, coef.getD j 0 • g j := by
      intro g
      rw [abFormula_sum _ _ _ _ (by simp), sum_congr rfl fun j hj => by rw [getD g j (mem_range.1 hj)]]
    rw [h3, h2, h4, h4]
    simp only [smul_sub, sum_sub_distrib]
    abel
  refine (IsBigO.sub ?_ T1).congr_left fun h => (H h).symm
  have hsum : (fun h : ℝ => ∑ j ∈ range coef.length, coef.getD j 0 • (deriv φ (t + (a - j) * h) - polyDeriv v (n + 1) ((a - j) * h))) =O[𝓝 0]
      fun h : ℝ => h ^ (n + 1) := by
    have hone : ∀ j ∈ range coef.length, (fun h : ℝ => coef.getD j 0 • (deriv φ (t + (a - j) * h) - polyDeriv v (n + 1) ((a - j) * h))) =O[𝓝 0]
        fun h : ℝ => h ^ (n + 1) := ?_
    · have := IsBigO.sum hone
      refine this.congr_left fun h => ?_
      rw [Finset.sum_apply]
    intro j _
    refine IsBigO.const_smul_left ?_ _
    have hc : Tendsto (fun h : ℝ => (a - j) * h) (𝓝 0) (𝓝 0) := by
      have := (by fun_prop : Continuous fun h : ℝ => (a - j) * h).tendsto 0
      simpa using this
    refine (T2.comp_tendsto hc).trans ?_
    refine IsBigO.of_bound (|a - j| ^ (n + 1)) (Eventually.of_forall fun h => ?_)
    simp only [Function.comp_apply, mul_pow, norm_mul, norm_pow, Real.norm_eq_abs]
    exact le_rfl
  have := (isBigO_refl (fun h : ℝ => h) (𝓝 0)).smul hsum
  refine this.congr_right fun h => ?_
  rw [smul_eq_mul, pow_succ' h (n + 1)]

/-- The same, uniformly for the times of an interval. -/
theorem formula_truncation_uniform [CompleteSpace V] {N : ℕ} (coef : List ℝ) (a : ℝ)
    (hex : ∀ (v : ℕ → V) (x : V) (t dt : ℝ), abFormula coef x dt ((List.range coef.length).map fun j : ℕ => polyDeriv v N (t + (a - j) * dt)) =
      x + (poly v N (t + dt) - poly v N t)) (hN : 1 ≤ N) {f : V → ℝ → V} (hf : GoodRhs f (N + 1)) {φ : ℝ → V} (hφ : IsFlowLine f φ) (c b : ℝ) :
    ∃ M, 0 ≤ M ∧ ∀ t ∈ Set.Icc c b, ∀ h : ℝ, |h| ≤ 1 →
      ‖abFormula coef (φ t) h ((List.range coef.length).map fun j : ℕ => f (φ (t + (a - j) * h)) (t + (a - j) * h)) - φ (t + h)‖ ≤ M * |h| ^ (N + 1) := by
  have hs : ContDiff ℝ (N + 1 + 1 : ℕ) φ := by exact_mod_cast solution_smooth hf.smooth hφ
  have hd : ∀ s, f (φ s) s = deriv φ s := fun s => (hφ s).deriv.symm
  have hs1 : ContDiff ℝ (N + 1 : ℕ) φ := hs.of_le (by exact_mod_cast Nat.le_succ _)
  have hs2 : ContDiff ℝ (N + 1 : ℕ) (deriv φ) := ((contDiff_succ_iff_deriv (n := (N + 1 : ℕ))).1 (by exact_mod_cast hs)).2.2
  simp only [hd]
  refine uniform_of_pointwise_le (G := fun z : ℝ × ℝ =>
    abFormula coef (φ z.1) z.2 ((List.range coef.length).map fun j : ℕ => deriv φ (z.1 + (a - j) * z.2)) - φ (z.1 + z.2)) ?_
    (fun t => formula_truncation coef a hex hN hs1 t) c b 1
  have e : (fun z : ℝ × ℝ => abFormula coef (φ z.1) z.2 ((List.range coef.length).map fun j : ℕ => deriv φ (z.1 + (a - j) * z.2)) - φ (z.1 + z.2)) =
      fun z : ℝ × ℝ => φ z.1 + z.2 • (∑ j ∈ range coef.length, coef.getD j 0 • deriv φ (z.1 + (a - j) * z.2)) - φ (z.1 + z.2) := by
    funext z
    rw [abFormula_sum _ _ _ _ (by simp), sum_congr rfl fun j hj => ?_]
    have hj := mem_range.1 hj
    simp [List.getD, hj]
  rw [e]
  have h1 : ∀ j : ℕ, ContDiff ℝ (N + 1 : ℕ) fun z : ℝ × ℝ => coef.getD j 0 • deriv φ (z.1 + (a - j) * z.2) := fun j =>
    (hs2.comp (contDiff_fst.add (contDiff_const.mul contDiff_snd))).const_smul _
  have h2 : ContDiff ℝ (N + 1 : ℕ) fun z : ℝ × ℝ =>
      φ z.1 + z.2 • (∑ j ∈ range coef.length, coef.getD j 0 • deriv φ (z.1 + (a - j) * z.2)) - φ (z.1 + z.2) :=
    ((hs1.comp contDiff_fst).add (contDiff_snd.smul (ContDiff.sum fun j _ => h1 j))).sub (hs1.comp (contDiff_fst.add contDiff_snd))
  exact_mod_cast h2

end Verif
