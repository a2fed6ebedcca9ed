import Verif.Spec.DenseRun
import Verif.Lemmas.DenseRunLoops
import Verif.Lemmas.RkBounded
import Verif.Lemmas.ReliableRun
import Verif.Props.DenseOrder
import Verif.Props.DenseSteps
import Verif.Props.StepAdjust
import Verif.Props.ControlledRun

/-! # The dense output stepper of `runge_kutta_dopri5` meets the contract of `DenseFn` -/

set_option linter.unusedSectionVars false

namespace Verif
open Finset BSeries

section Extension
variable {V W : Type} [NormedAddCommGroup V] [NormedSpace ℝ V] [CompleteSpace V]

/-- the coefficient of `θ^(m+1)`, as a Runge-Kutta formula -/
noncomputable def extensionPart (f : V → ℝ → V) (m : ℕ) (x : V) (t h : ℝ) : V :=
  x + h • ∑ i ∈ range 7, denseBeta (m + 1) i • dopri5Tableau.stageFn f x t h i

theorem extensionPart_isRk (f : V → ℝ → V) (m : ℕ) : IsRk f (extensionPart f m) :=
  ⟨7, dopri5Tableau.aij, dopri5Tableau.ci, denseBeta (m + 1), fun x t h => dopri5Tableau.stageFn f x t h,
    fun x t h i hi => dopri5Tableau.stageFn_isStages f x t h i hi, fun _ _ _ => rfl⟩

theorem dopri5Extension_parts (f : V → ℝ → V) (x : V) (t h θ : ℝ) :
    dopri5Extension f x t h θ = x + ∑ m ∈ range 5, θ ^ (m + 1) • (extensionPart f m x t h - x) := by
  simp only [dopri5Extension, extensionPart, add_sub_cancel_left]

theorem dopri5Extension_uniform {f : V → ℝ → V} (hf : GoodRhs f 6) {φ : ℝ → V} (hφ : IsFlowLine f φ) (a b B : ℝ) :
    ∃ M, 0 ≤ M ∧ ∀ t ∈ Set.Icc a b, ∀ θ ∈ Set.Icc (0 : ℝ) 1, ∀ h, |h| ≤ B →
      ‖dopri5Extension f (φ t) t h θ - φ (t + θ * h)‖ ≤ M * |h| ^ 5 := by
  have hs : ContDiff ℝ (5 : ℕ) φ := (solution_smooth hf.smooth hφ).of_le (by exact_mod_cast (by omega : 5 ≤ 6 + 1))
  have hpart : ∀ m, ContDiff ℝ (5 : ℕ) fun z : V × ℝ × ℝ => extensionPart f m z.1 z.2.1 z.2.2 := fun m =>
    (IsRk.regular hf (extensionPart_isRk f m)).smooth.of_le (by exact_mod_cast (by omega : 5 ≤ 6))
  have hsmooth : ContDiff ℝ (((4 : ℕ) : WithTop ℕ∞) + 1) fun z : (ℝ × ℝ) × ℝ =>
      dopri5Extension f (φ z.1.1) z.1.1 z.2 z.1.2 - φ (z.1.1 + z.1.2 * z.2) := by
    simp only [dopri5Extension_parts]
    have e1 : ContDiff ℝ (5 : ℕ) fun z : (ℝ × ℝ) × ℝ => φ z.1.1 := hs.comp (contDiff_fst.comp contDiff_fst)
    have e2 : ContDiff ℝ (5 : ℕ) fun z : (ℝ × ℝ) × ℝ => φ (z.1.1 + z.1.2 * z.2) :=
      hs.comp ((contDiff_fst.comp contDiff_fst).add ((contDiff_snd.comp contDiff_fst).mul contDiff_snd))
    have e3 : ∀ m, ContDiff ℝ (5 : ℕ) fun z : (ℝ × ℝ) × ℝ => extensionPart f m (φ z.1.1) z.1.1 z.2 := fun m =>
      (hpart m).comp (e1.prodMk ((contDiff_fst.comp contDiff_fst).prodMk contDiff_snd))
    have e4 : ContDiff ℝ (5 : ℕ) fun z : (ℝ × ℝ) × ℝ => φ z.1.1 + ∑ m ∈ range 5, z.1.2 ^ (m + 1) • (extensionPart f m (φ z.1.1) z.1.1 z.2 - φ z.1.1) :=
      e1.add (ContDiff.sum fun m _ => ((contDiff_snd.comp contDiff_fst).pow (m + 1)).smul ((e3 m).sub e1))
    exact_mod_cast e4.sub e2
  have hlocal : ∀ z ∈ Set.Icc a b ×ˢ Set.Icc (0 : ℝ) 1, (fun h : ℝ => dopri5Extension f (φ z.1) z.1 h z.2 - φ (z.1 + z.2 * h)) =O[nhds 0]
      fun h : ℝ => h ^ (4 + 1) := by
    rintro ⟨t, θ⟩ ⟨ht, hθ⟩
    obtain ⟨C, ε, hε, h1⟩ := dopri5Extension_order (f := f) (hf.smoothAt (p := 4) (by omega) (φ t) t) (hφ.isSolution t)
    refine Asymptotics.IsBigO.of_bound C ?_
    filter_upwards [Metric.ball_mem_nhds (0 : ℝ) hε] with h hh
    rw [norm_pow, Real.norm_eq_abs]
    exact h1 h (by simpa using hh) θ hθ.1 hθ.2
  obtain ⟨M, hM, key⟩ := uniform_on_compact_le (p := 4) (E := ℝ × ℝ) hsmooth (isCompact_Icc.prod isCompact_Icc) hlocal B
  exact ⟨M, hM, fun t ht θ hθ h hh => key (t, θ) ⟨ht, hθ⟩ h hh⟩

theorem dopri5Extension_lipschitz {f : V → ℝ → V} (hf : GoodRhs f 6) (B : ℝ) :
    ∃ L, 0 ≤ L ∧ ∀ x y t h, |h| ≤ B → ∀ θ ∈ Set.Icc (0 : ℝ) 1, ‖dopri5Extension f x t h θ - dopri5Extension f y t h θ‖ ≤ L * ‖x - y‖ := by
  choose C hC0 hC using fun m => (IsRk.regular hf (extensionPart_isRk f m)).lipschitz B
  refine ⟨1 + ∑ m ∈ range 5, (2 + C m * |B|), ?_, fun x y t h hh θ hθ => ?_⟩
  · have : 0 ≤ ∑ m ∈ range 5, (2 + C m * |B|) := sum_nonneg fun m _ => by have := hC0 m; positivity
    linarith
  · rw [dopri5Extension_parts, dopri5Extension_parts]
    have e : x + ∑ m ∈ range 5, θ ^ (m + 1) • (extensionPart f m x t h - x) - (y + ∑ m ∈ range 5, θ ^ (m + 1) • (extensionPart f m y t h - y)) =
        (x - y) + ∑ m ∈ range 5, θ ^ (m + 1) • ((extensionPart f m x t h - extensionPart f m y t h) - (x - y)) := by
      have : ∑ m ∈ range 5, θ ^ (m + 1) • ((extensionPart f m x t h - extensionPart f m y t h) - (x - y)) =
          ∑ m ∈ range 5, θ ^ (m + 1) • (extensionPart f m x t h - x) - ∑ m ∈ range 5, θ ^ (m + 1) • (extensionPart f m y t h - y) := by
        rw [← sum_sub_distrib]
        refine sum_congr rfl fun m _ => ?_
        rw [← smul_sub]
        congr 1
        abel
      rw [this]
      abel
    rw [e, add_mul, one_mul, sum_mul]
    refine (norm_add_le _ _).trans (add_le_add le_rfl ((norm_sum_le _ _).trans (sum_le_sum fun m _ => ?_)))
    rw [norm_smul, norm_pow, Real.norm_eq_abs, abs_of_nonneg hθ.1]
    refine (mul_le_of_le_one_left (norm_nonneg _) (pow_le_one₀ hθ.1 hθ.2)).trans ((norm_sub_le _ _).trans ?_)
    have h1 := hC m x y t h hh
    have h2 : C m * |h| ≤ C m * |B| := mul_le_mul_of_nonneg_left (hh.trans (le_abs_self B)) (hC0 m)
    have h3 := mul_le_mul_of_nonneg_right h2 (norm_nonneg (x - y))
    linarith

end Extension

section Trials
variable {W : Type} {d : ℕ} {sys : Sys ℝ (Fin d → ℝ) W} {f : (Fin d → ℝ) → ℝ → Fin d → ℝ}

/-- the weighted error of a step -/
noncomputable def dopri5Weighted (τ : Tolerances) (f : (Fin d → ℝ) → ℝ → Fin d → ℝ) (x : Fin d → ℝ) (t h : ℝ) : ℝ :=
  ((τ.checker d).error x (f x t) (dopri5Error (f x t) h (dopri5Fun f x (f x t) t h)) h).2

/-- one trial -/
theorem dopri5Trial_run (hs : Evaluates sys f) (τ : Tolerances) {σ maxDt H : ℝ} (hσ : σ = 1 ∨ σ = -1) (hlim : LimitIs σ maxDt H)
    (x : Fin d → ℝ) (t h : ℝ) (hh : 0 < σ * h) (hle : maxDt ≠ 0 → σ * h ≤ H) (w : W) :
    ∃ w' h', (1 < dopri5Weighted τ f x t h ∧ σ * h / 5 ≤ σ * h' ∧ σ * h' ≤ 9 / 10 * (σ * h) ∧
        dopri5Trial (τ.controlUpTo d 5 4 maxDt) sys x (f x t) t h w =
          .ok (.rejected (dopri5Fun f x (f x t) t h) (dopri5Weighted τ f x t h) h') w') ∨
      (dopri5Weighted τ f x t h ≤ 1 ∧ σ * h ≤ σ * h' ∧
        dopri5Trial (τ.controlUpTo d 5 4 maxDt) sys x (f x t) t h w =
          .ok (.accepted (dopri5Fun f x (f x t) t h) (dopri5Weighted τ f x t h) h') w') := by
  obtain ⟨w', e⟩ := dopri5Step_value hs x (f x t) t h w
  set v := dopri5Weighted τ f x t h with hv
  have hvdef : ((τ.controlUpTo d 5 4 maxDt).checker.error x (f x t) (dopri5Error (f x t) h (dopri5Fun f x (f x t) t h)) h).2 = v := rfl
  have hcheck := (upTo_check (d := d) hσ hlim hh τ 5 4).2 hle
  unfold dopri5Trial
  rw [if_neg (by rw [hcheck]; simp), M.bind_ok e]
  rw [hvdef]
  by_cases h1 : 1 < v
  · refine ⟨w', limitStep maxDt (h * decFactor v 4), .inl ⟨h1, ?_⟩⟩
    obtain ⟨b1, b2⟩ := decFactor_bounds h1 (order := 4) (by norm_num)
    have hpos : 0 < σ * (h * decFactor v 4) := by rw [← mul_assoc]; exact mul_pos hh (by linarith)
    have hmin : σ * limitStep maxDt (h * decFactor v 4) = σ * h * decFactor v 4 := by
      rw [limitStep_sign hσ hlim hpos, mul_assoc]
      split
      · rfl
      · rename_i h0
        refine min_eq_left ?_
        have := hle h0
        rw [← mul_assoc]
        nlinarith
    refine ⟨by rw [hmin]; nlinarith, by rw [hmin]; nlinarith, ?_⟩
    rw [if_pos (show (τ.controlUpTo d 5 4 maxDt).gtOne v = true from decide_eq_true h1)]
    have : (τ.controlUpTo d 5 4 maxDt).adjuster.decreaseStep h v (τ.controlUpTo d 5 4 maxDt).errorOrder = limitStep maxDt (h * decFactor v 4) :=
      decrease_step_formula maxDt h v 4
    rw [this]
    rfl
  · refine ⟨w', (τ.controlUpTo d 5 4 maxDt).adjuster.increaseStep h v (τ.controlUpTo d 5 4 maxDt).stepperOrder, .inr ⟨not_lt.1 h1, ?_, ?_⟩⟩
    · have : (τ.controlUpTo d 5 4 maxDt).adjuster.increaseStep h v (τ.controlUpTo d 5 4 maxDt).stepperOrder =
          if v < 1 / 2 then limitStep maxDt (h * incFactor v 5) else h := increase_step_formula maxDt h v 5
      rw [this]
      split
      · rename_i hhalf
        have hinc : 1 ≤ incFactor v 5 := by
          have h2 := (increase_step_bounds_partial (eps := 0) 1 v 5 (by norm_num)).2.2.1 (by norm_num)
          rw [increase_step_factor, one_mul, abs_one] at h2
          rwa [abs_of_pos (incFactor_pos v (by norm_num))] at h2
        have hpos : 0 < σ * (h * incFactor v 5) := by rw [← mul_assoc]; exact mul_pos hh (by linarith)
        rw [limitStep_sign hσ hlim hpos]
        split
        · rw [← mul_assoc]; nlinarith
        · rename_i h0
          refine le_min ?_ (hle h0)
          rw [← mul_assoc]; nlinarith
      · exact le_rfl
    · rw [if_neg (show ¬ (τ.controlUpTo d 5 4 maxDt).gtOne v = true from by simpa [Tolerances.controlUpTo] using h1)]
      rfl

/-- the trials of a step whose size is within the limit -/
theorem dopri5Trials_within (hs : Evaluates sys f) (τ : Tolerances) {σ maxDt H hsm : ℝ} (hσ : σ = 1 ∨ σ = -1) (hlim : LimitIs σ maxDt H)
    (x : Fin d → ℝ) (t : ℝ) (n : ℕ) (h : ℝ) (hh : 0 < σ * h) (hle : maxDt ≠ 0 → σ * h ≤ H)
    (hsmall : ∀ h', 0 < σ * h' → σ * h' ≤ σ * h → σ * h' ≤ hsm → dopri5Weighted τ f x t h' ≤ 1) (w : W) :
    ∃ w', (∃ h1 dt', dopri5Trials (τ.controlUpTo d 5 4 maxDt) sys x (f x t) t n h w = .ok (.done (dopri5Fun f x (f x t) t h1) (t + h1) dt') w' ∧
        0 < σ * h1 ∧ σ * h1 ≤ σ * h ∧ (h1 = h ∨ hsm / 5 ≤ σ * h1) ∧ σ * h1 ≤ σ * dt' ∧ dopri5Weighted τ f x t h1 ≤ 1) ∨
      (∃ t' dt', dopri5Trials (τ.controlUpTo d 5 4 maxDt) sys x (f x t) t n h w = .ok (.threw .stepAdjustment t' dt') w' ∧
        (n = 0 ∨ hsm < (9 / 10) ^ (n - 1) * (σ * h))) := by
  induction n generalizing h w with
  | zero =>
    obtain ⟨w', h', ⟨-, -, -, e⟩ | ⟨-, -, e⟩⟩ := dopri5Trial_run hs τ hσ hlim x t h hh hle w
    · exact ⟨w', .inr ⟨t, h', by unfold dopri5Trials; rw [e], .inl rfl⟩⟩
    · exact ⟨w', .inr ⟨t + h, h', by unfold dopri5Trials; rw [e], .inl rfl⟩⟩
  | succ n ih =>
    obtain ⟨w1, h', ⟨h1, h2, h3, e⟩ | ⟨h1, h2, e⟩⟩ := dopri5Trial_run hs τ hσ hlim x t h hh hle w
    · have hbig : hsm < σ * h := by
        by_contra hc
        exact absurd (hsmall h hh le_rfl (not_lt.1 hc)) (not_le.2 h1)
      have hpos' : 0 < σ * h' := by linarith
      obtain ⟨w2, r⟩ := ih h' hpos' (fun h0 => by have := hle h0; linarith) (fun h'' a b c => hsmall h'' a (by linarith) c) w1
      refine ⟨w2, ?_⟩
      unfold dopri5Trials
      rw [e]
      dsimp only
      rcases r with ⟨k, dt', e2, a1, a2, a3, a4, a5⟩ | ⟨t', dt', e2, a1⟩
      · refine .inl ⟨k, dt', e2, a1, by linarith, .inr ?_, a4, a5⟩
        rcases a3 with rfl | a3
        · linarith
        · exact a3
      · refine .inr ⟨t', dt', e2, .inr ?_⟩
        rw [Nat.add_sub_cancel]
        rcases a1 with rfl | a1
        · simpa using hbig
        · cases n with
          | zero => simpa using hbig
          | succ n =>
            rw [Nat.add_sub_cancel] at a1
            rw [pow_succ, mul_assoc]
            exact a1.trans_le (mul_le_mul_of_nonneg_left h3 (by positivity))
    · refine ⟨w1, .inl ⟨h, h', ?_, hh, le_rfl, .inl rfl, h2, h1⟩⟩
      unfold dopri5Trials
      rw [e]

/-- the trials of a step -/
theorem dopri5Trials_run (hs : Evaluates sys f) (τ : Tolerances) {σ maxDt H hsm : ℝ} (hσ : σ = 1 ∨ σ = -1) (hlim : LimitIs σ maxDt H)
    (x : Fin d → ℝ) (t : ℝ) (n : ℕ) (h : ℝ) (hh : 0 < σ * h)
    (hsmall : ∀ h', 0 < σ * h' → σ * h' ≤ σ * h → σ * h' ≤ hsm → dopri5Weighted τ f x t h' ≤ 1) (w : W) :
    ∃ w', (∃ h1 dt', dopri5Trials (τ.controlUpTo d 5 4 maxDt) sys x (f x t) t (n + 2) h w = .ok (.done (dopri5Fun f x (f x t) t h1) (t + h1) dt') w' ∧
        0 < σ * h1 ∧ σ * h1 ≤ σ * h ∧ (maxDt ≠ 0 → σ * h1 ≤ H) ∧ (h1 = h ∨ hsm / 5 ≤ σ * h1 ∨ maxDt ≠ 0 ∧ σ * h1 = H) ∧ σ * h1 ≤ σ * dt' ∧
        dopri5Weighted τ f x t h1 ≤ 1) ∨
      (∃ t' dt', dopri5Trials (τ.controlUpTo d 5 4 maxDt) sys x (f x t) t (n + 2) h w = .ok (.threw .stepAdjustment t' dt') w' ∧
        hsm < (9 / 10) ^ n * (σ * h)) := by
  by_cases hle : maxDt ≠ 0 → σ * h ≤ H
  · obtain ⟨w', ⟨h1, dt', e, a1, a2, a3, a4, a5⟩ | ⟨t', dt', e, a1⟩⟩ := dopri5Trials_within hs τ hσ hlim x t (n + 2) h hh hle hsmall w
    · refine ⟨w', .inl ⟨h1, dt', e, a1, a2, fun h0 => a2.trans (hle h0), ?_, a4, a5⟩⟩
      rcases a3 with a3 | a3
      · exact .inl a3
      · exact .inr (.inl a3)
    · refine ⟨w', .inr ⟨t', dt', e, ?_⟩⟩
      have := a1.resolve_left (by omega)
      rw [show n + 2 - 1 = n + 1 by omega, pow_succ] at this
      have h2 : 0 ≤ ((9 : ℝ) / 10) ^ n * (σ * h) := by positivity
      nlinarith
  · push Not at hle
    obtain ⟨h0, hgt⟩ := hle
    obtain ⟨hm, hH⟩ := hlim.resolve_left h0
    have hlimited : dopri5Trial (τ.controlUpTo d 5 4 maxDt) sys x (f x t) t h w = .ok (.limited maxDt) w := by
      unfold dopri5Trial
      have : (τ.controlUpTo d 5 4 maxDt).adjuster.checkStepSizeLimit h = false := by
        rw [← Bool.not_eq_true, upTo_check (d := d) hσ hlim hh τ 5 4]
        exact fun hc => absurd (hc h0) (not_le.2 hgt)
      rw [if_pos this]
      rfl
    have hσm : σ * maxDt = H := by rw [hm]; rcases hσ with h | h <;> rw [h] <;> ring
    obtain ⟨w', r⟩ := dopri5Trials_within hs τ hσ hlim x t (n + 1) maxDt (by rw [hσm]; exact hH) (fun _ => hσm.le)
      (fun h' b1 b2 b3 => hsmall h' b1 (by linarith) b3) w
    refine ⟨w', ?_⟩
    rw [show n + 2 = (n + 1) + 1 from rfl, dopri5Trials, hlimited]
    dsimp only
    rcases r with ⟨h1, dt', e, a1, a2, a3, a4, a5⟩ | ⟨t', dt', e, a1⟩
    · refine .inl ⟨h1, dt', e, a1, by linarith, fun _ => by linarith, ?_, a4, a5⟩
      rcases a3 with rfl | a3
      · exact .inr (.inr ⟨h0, hσm⟩)
      · exact .inr (.inl a3)
    · refine .inr ⟨t', dt', e, ?_⟩
      have := a1.resolve_left (by omega)
      rw [Nat.add_sub_cancel, hσm] at this
      exact this.trans_le (mul_le_mul_of_nonneg_left hgt.le (by positivity))

end Trials

section Contract
variable {W : Type} {d : ℕ} {sys : Sys ℝ (Fin d → ℝ) W} {f : (Fin d → ℝ) → ℝ → Fin d → ℝ}

/-- an accepted step, within the time `T` and the step size `H` -/
structure DopriStep (τ : Tolerances) (f : (Fin d → ℝ) → ℝ → Fin d → ℝ) (σ T H : ℝ) (u v : (Fin d → ℝ) × ℝ) : Prop where
  pos : 0 < σ * (v.2 - u.2)
  le : σ * (v.2 - u.2) ≤ H
  time : σ * v.2 ≤ T
  state : v.1 = (dopri5Fun f u.1 (f u.1 u.2) u.2 (v.2 - u.2)).x
  error : dopri5Weighted τ f u.1 u.2 (v.2 - u.2) ≤ 1

/-- states and times reached by accepted steps -/
def DopriReached (τ : Tolerances) (f : (Fin d → ℝ) → ℝ → Fin d → ℝ) (σ T H : ℝ) (start : (Fin d → ℝ) × ℝ) : (Fin d → ℝ) × ℝ → Prop :=
  Relation.ReflTransGen (DopriStep τ f σ T H) start

/-- what a heap contains after `initialize` or a step -/
def DopriAtStep (τ : Tolerances) (f : (Fin d → ℝ) → ℝ → Fin d → ℝ) (σ T H : ℝ) (start : (Fin d → ℝ) × ℝ) (q : Heap ℝ (Fin d → ℝ) W) : Prop :=
  ∃ a : DopriDense ℝ (Fin d → ℝ) W, a.InHeap q ∧ a.DerivValid f ∧ DopriReached τ f σ T H start (a.x, a.t)

/-- what a heap contains after a step that began at the time `lo` -/
def DopriStepped (τ : Tolerances) (f : (Fin d → ℝ) → ℝ → Fin d → ℝ) (σ T H : ℝ) (start : (Fin d → ℝ) × ℝ) (q : Heap ℝ (Fin d → ℝ) W) (lo : ℝ) :
    Prop :=
  ∃ (a : DopriDense ℝ (Fin d → ℝ) W) (s : LastStep ℝ (Fin d → ℝ)) (h : ℝ), a.InHeap q ∧ a.last = some s ∧ s.tOld = lo ∧
    DopriReached τ f σ T H start (s.xOld, lo) ∧ s.kOld = f s.xOld lo ∧ a.t = lo + h ∧ 0 < σ * h ∧ σ * h ≤ H ∧ σ * (lo + h) ≤ T ∧
    (⟨s.k3, s.k4, s.k5, s.k6, a.x, s.k7⟩ : Dopri5Result (Fin d → ℝ)) = dopri5Fun f s.xOld (f s.xOld lo) lo h

/-- interpolated states -/
def DopriBetween (τ : Tolerances) (f : (Fin d → ℝ) → ℝ → Fin d → ℝ) (σ T H : ℝ) (start : (Fin d → ℝ) × ℝ) (y : Fin d → ℝ) (t : ℝ) : Prop :=
  ∃ (x : Fin d → ℝ) (lo h θ : ℝ), DopriReached τ f σ T H start (x, lo) ∧ 0 < σ * h ∧ σ * h ≤ H ∧ σ * (lo + h) ≤ T ∧ 0 ≤ θ ∧ θ ≤ 1 ∧
    t = lo + θ * h ∧ y = dopri5Extension f x lo h θ

theorem inHeap_withWorld {q : Heap ℝ (Fin d → ℝ) W} {a : DopriDense ℝ (Fin d → ℝ) W} (h : a.InHeap q) (w : W) :
    (⟨a.x, a.t, a.dt, a.k, a.last, a.user, w⟩ : DopriDense ℝ (Fin d → ℝ) W).InHeap (q.withWorld w) :=
  ⟨h.x, h.t, h.dt, h.flag, h.k, h.last, h.user, rfl⟩

/-- the contents of any heap -/
theorem inHeap_exists (q : Heap ℝ (Fin d → ℝ) W) : ∃ a : DopriDense ℝ (Fin d → ℝ) W, a.InHeap q ∧ a.world = q.world ∧ a.user = fun n => q.state (.user n) := by
  refine ⟨⟨currentState q, currentTime q, currentTimeStep q, if q.flag mDerivInit then some (q.state (getCurrentDeriv (q.flag mCurX1))) else none, none,
    fun n => q.state (.user n), q.world⟩, ⟨rfl, rfl, rfl, ?_, ?_, ?_, fun _ => rfl, rfl⟩, rfl, rfl⟩
  · by_cases h : q.flag mDerivInit = true <;> simp [h]
  · intro k hk
    by_cases h : q.flag mDerivInit = true
    · simp only [h, if_true] at hk; exact Option.some.inj hk
    · simp [h] at hk
  · intro s hs; cases hs

theorem DopriReached.bound {τ : Tolerances} {σ T H t0 C : ℝ} {x0 : Fin d → ℝ} (hσ : σ = 1 ∨ σ = -1) (hC : 0 ≤ C) {B : ℝ}
    (hgrow : ∀ x t h, 0 ≤ σ * (t - t0) → σ * t ≤ T → |h| ≤ B → ‖(dopri5Fun f x (f x t) t h).x - x‖ ≤ C * |h| * (1 + ‖x‖))
    (hB : T - σ * t0 ≤ B) (hT0 : σ * t0 ≤ T) {b : (Fin d → ℝ) × ℝ} (h : DopriReached τ f σ T H (x0, t0) b) :
    0 ≤ σ * (b.2 - t0) ∧ σ * b.2 ≤ T ∧ 1 + ‖b.1‖ ≤ Real.exp (C * (σ * (b.2 - t0))) * (1 + ‖x0‖) := by
  induction h with
  | refl => exact ⟨by simp, hT0, by simp⟩
  | @tail u v _ hs ih =>
    obtain ⟨h1, h2, h3⟩ := ih
    have habs := abs_of_sign hσ hs.pos.le
    have hnew : σ * (v.2 - t0) = σ * (u.2 - t0) + |v.2 - u.2| := by rw [habs]; ring
    refine ⟨by rw [hnew]; positivity, hs.time, ?_⟩
    have hle : |v.2 - u.2| ≤ B := by
      have := hs.time
      rw [habs, mul_sub]; rw [mul_sub] at h1; linarith
    have hg := hgrow u.1 u.2 (v.2 - u.2) h1 h2 hle
    rw [← hs.state] at hg
    rw [hnew, mul_add C, Real.exp_add]
    have h4 : ‖v.1‖ ≤ ‖u.1‖ + ‖v.1 - u.1‖ := by
      have := norm_add_le u.1 (v.1 - u.1)
      rwa [add_sub_cancel] at this
    have h5 : C * |v.2 - u.2| + 1 ≤ Real.exp (C * |v.2 - u.2|) := Real.add_one_le_exp _
    have h6 : 1 + ‖v.1‖ ≤ Real.exp (C * |v.2 - u.2|) * (1 + ‖u.1‖) := by
      have : (C * |v.2 - u.2| + 1) * (1 + ‖u.1‖) ≤ Real.exp (C * |v.2 - u.2|) * (1 + ‖u.1‖) := mul_le_mul_of_nonneg_right h5 (by positivity)
      linarith
    refine h6.trans ((mul_le_mul_of_nonneg_left h3 (Real.exp_pos _).le).trans (le_of_eq ?_))
    ring

theorem dopri5_denseFn (hs : Evaluates sys f) {τ : Tolerances} (hτ : τ.Valid) {σ maxDt L H T t0 C B N g : ℝ} {x0 : Fin d → ℝ}
    (hσ : σ = 1 ∨ σ = -1) (hlim : LimitIs σ maxDt L) (hLH : maxDt ≠ 0 → L ≤ H) (hTH : maxDt = 0 → T - σ * t0 ≤ H) (hC : 0 ≤ C)
    (hgrow : ∀ x t h, 0 ≤ σ * (t - t0) → σ * t ≤ T → |h| ≤ B → ‖(dopri5Fun f x (f x t) t h).x - x‖ ≤ C * |h| * (1 + ‖x‖) ∧
      ‖dopri5Error (f x t) h (dopri5Fun f x (f x t) t h)‖ ≤ C * |h| * (1 + ‖x‖))
    (hB : T - σ * t0 ≤ B) (hT0 : σ * t0 ≤ T) (hM : Real.exp (C * B) * (1 + ‖x0‖) ≤ N)
    (hg1 : g ≤ τ.absolute / (C * N + 1) / 5) (hg2 : maxDt ≠ 0 → g ≤ L) :
    DenseFn (denseObject (τ.controlUpTo d 5 4 maxDt) sys) (DopriAtStep τ f σ T H (x0, t0)) (DopriStepped τ f σ T H (x0, t0))
      (DopriReached τ f σ T H (x0, t0)) (DopriStep τ f σ T H) (DopriBetween τ f σ T H (x0, t0))
      (τ.absolute / (C * N + 1) < (9 / 10) ^ 498 * (T - σ * t0)) σ T g := by
  have hbound : ∀ {b : (Fin d → ℝ) × ℝ}, DopriReached τ f σ T H (x0, t0) b → 0 ≤ σ * (b.2 - t0) ∧ σ * b.2 ≤ T ∧ 1 + ‖b.1‖ ≤ N := by
    intro b hb
    obtain ⟨h1, h2, h3⟩ := hb.bound hσ hC (fun x t h a b c => (hgrow x t h a b c).1) hB hT0
    refine ⟨h1, h2, h3.trans ((mul_le_mul_of_nonneg_right (Real.exp_le_exp.2 (mul_le_mul_of_nonneg_left ?_ hC)) (by positivity)).trans hM)⟩
    rw [mul_sub]; linarith
  have hM0 : 0 ≤ N := le_trans (by positivity) hM
  constructor
  · rintro q ⟨a, ha, -, hr⟩
    show DopriReached τ f σ T H (x0, t0) (currentState q, currentTime q)
    rw [ha.x, ha.t]; exact hr
  · intro q x t dt w l hr
    set h0 := (q.set (.user 0) x).withWorld w with hh0
    obtain ⟨a, ha, -, hu⟩ := inHeap_exists h0
    have hx : a.user 0 = x := by rw [hu]; simp [hh0, Heap.withWorld, Heap.set]
    have E := dopri_dense_call (τ.controlUpTo d 5 4 maxDt) sys (.init 0 t dt) h0 a ha
    rcases E with E | E
    · cases E
    · simp only [dopriDenseCall, DopriDense.call, SameRes] at E
      cases hres : fsalDenseInit (.user 0) t dt h0 with
      | err => rw [M.bind_err hres] at E; exact E.elim
      | ub => rw [M.bind_ub hres] at E; exact E.elim
      | div => rw [M.bind_div hres] at E; exact E.elim
      | ok u h1 =>
        rw [M.bind_ok hres] at E
        obtain ⟨-, E⟩ := E
        refine ⟨h1, h1.world, ?_, ⟨_, E, ?_, ?_⟩, ?_, E.t, E.dt⟩
        · simp only [denseObject, ← hh0, hres]
        · intro k hk; cases hk
        · dsimp only; rw [hx]; exact hr
        · exact E.x.trans hx
  · intro q w l ⟨a, ha, hv, hr⟩ hdt hT
    obtain ⟨hr1, hr2, hr3⟩ := hbound hr
    have et : currentTime q = a.t := ha.t
    have ed : currentTimeStep q = a.dt := ha.dt
    have ex : currentState q = a.x := ha.x
    change 0 < σ * currentTimeStep q at hdt
    change σ * (currentTime q + currentTimeStep q) ≤ T at hT
    rw [et, ed] at hT
    rw [ed] at hdt
    set a0 : DopriDense ℝ (Fin d → ℝ) W := ⟨a.x, a.t, a.dt, a.k, a.last, a.user, w⟩ with ha0
    have E := dopri_dense_do_step (τ.controlUpTo d 5 4 maxDt) sys (q.withWorld w) a0 (inHeap_withWorld ha w)
    -- the derivative
    obtain ⟨w1, e1⟩ : ∃ w1, a0.deriv sys a0.world = .ok (f a.x a.t) w1 := by
      unfold DopriDense.deriv
      cases hk : a.k with
      | some k => refine ⟨w, ?_⟩; simp only [ha0, hk]; rw [hv k hk]; rfl
      | none => simp only [ha0, hk]; exact hs a.x a.t w
    have hsmall : ∀ h', 0 < σ * h' → σ * h' ≤ σ * a.dt → σ * h' ≤ τ.absolute / (C * N + 1) → dopri5Weighted τ f a.x a.t h' ≤ 1 := by
      intro h' p1 p2 p3
      have habs := abs_of_sign hσ p1.le
      refine (checker_le hτ _ _ _ _).trans ?_
      rw [div_le_one hτ.absolute]
      rw [le_div_iff₀ (by positivity)] at p3
      have p4 : |h'| ≤ B := by rw [habs]; rw [mul_add] at hT; rw [mul_sub] at hr1; dsimp only at hr1; linarith
      have p5 := (hgrow a.x a.t h' hr1 hr2 p4).2
      have p6 : C * |h'| * (1 + ‖a.x‖) ≤ C * |h'| * N := mul_le_mul_of_nonneg_left hr3 (by positivity)
      rw [habs] at p5 p6
      nlinarith
    obtain ⟨w2, r⟩ := dopri5Trials_run hs τ hσ hlim a.x a.t 498 a.dt hdt hsmall w1
    have hwrap : ∀ res, fsalDenseDoStep (τ.controlUpTo d 5 4 maxDt) dopri5ErrImpl sys (q.withWorld w) = res →
        (denseObject (τ.controlUpTo d 5 4 maxDt) sys).doStep q (w, l) = match res with
          | .ok _ h => .ok h (h.world, l)
          | .err e h => .err e (h.world, l)
          | .ub => .ub
          | .div => .div := by
      intro res h
      simp only [denseObject, h]
      cases res <;> rfl
    unfold DopriDense.step at E
    rw [e1] at E
    dsimp only at E
    rw [show (defaultMaxSteps : ℕ) = 498 + 2 from rfl] at E
    rcases r with ⟨h1, dt', e, c1, c2, c3, c4, c5, c6⟩ | ⟨t', dt', e, c1⟩
    · rw [e] at E
      rw [hwrap _ rfl]
      cases hres : fsalDenseDoStep (τ.controlUpTo d 5 4 maxDt) dopri5ErrImpl sys (q.withWorld w) with
      | err => rw [hres] at E; exact E.elim
      | ub => rw [hres] at E; exact E.elim
      | div => rw [hres] at E; exact E.elim
      | ok u h2 =>
        rw [hres] at E
        obtain ⟨-, E⟩ := E
        have eX : currentState h2 = (dopri5Fun f a.x (f a.x a.t) a.t h1).x := E.x
        have eT : currentTime h2 = a.t + h1 := E.t
        have eD : currentTimeStep h2 = dt' := E.dt
        have hHle : σ * h1 ≤ H := by
          by_cases h0 : maxDt = 0
          · have := hTH h0
            rw [mul_add] at hT; rw [mul_sub] at hr1; dsimp only at hr1; linarith
          · exact (c3 h0).trans (hLH h0)
        have hTle : σ * (a.t + h1) ≤ T := by rw [mul_add] at hT ⊢; linarith
        have hstep : DopriStep τ f σ T H (a.x, a.t) ((dopri5Fun f a.x (f a.x a.t) a.t h1).x, a.t + h1) := by
          refine ⟨?_, ?_, hTle, ?_, ?_⟩ <;> dsimp only <;> rw [add_sub_cancel_left] <;> assumption
        refine ⟨rfl, ⟨_, E, ?_, hr.tail hstep⟩, ?_, ?_, h1, ?_, c1, ?_, ?_, ?_⟩
        · intro k hk
          rw [← Option.some.inj hk]
          rfl
        · show DopriStepped τ f σ T H (x0, t0) h2 (currentTime q)
          rw [et]
          exact ⟨_, _, h1, E, rfl, rfl, hr, rfl, rfl, c1, hHle, hTle, rfl⟩
        · show DopriStep τ f σ T H (currentState q, currentTime q) (currentState h2, currentTime h2)
          rw [ex, et, eX, eT]; exact hstep
        · show currentTime h2 = currentTime q + h1
          rw [eT, et]
        · show σ * h1 ≤ σ * currentTimeStep q
          rw [ed]; exact c2
        · show h1 = currentTimeStep q ∨ _
          rw [ed]
          rcases c4 with c4 | c4 | ⟨c4, c5⟩
          · exact .inl c4
          · exact .inr (hg1.trans c4)
          · exact .inr ((hg2 c4).trans c5.ge)
        · show σ * h1 ≤ σ * currentTimeStep h2
          rw [eD]; exact c5
    · rw [e] at E
      rw [hwrap _ rfl]
      cases hres : fsalDenseDoStep (τ.controlUpTo d 5 4 maxDt) dopri5ErrImpl sys (q.withWorld w) with
      | ok => rw [hres] at E; exact E.elim
      | ub => rw [hres] at E; exact E.elim
      | div => rw [hres] at E; exact E.elim
      | err e' h2 =>
        rw [hres] at E
        refine ⟨rfl, E.1, c1.trans_le (mul_le_mul_of_nonneg_left ?_ (by positivity))⟩
        rw [mul_add] at hT; rw [mul_sub] at hr1; dsimp only at hr1; linarith
  · rintro q lo t w l ⟨a, s, h, ha, hlast, hlo, hr, hk, ht, h1, h2, h3, hres⟩ p1 p2
    have et : currentTime q = a.t := ha.t
    change σ * t ≤ σ * currentTime q at p2
    rw [et, ht] at p2
    have E := dopri_dense_call (τ.controlUpTo d 5 4 maxDt) sys (.calcAt t 0) _ _ (inHeap_withWorld ha w)
    have hh : h ≠ 0 := by rintro rfl; simp at h1
    rcases E with E | E
    · simp only [DopriDense.call, hlast] at E; cases E
    · simp only [dopriDenseCall, DopriDense.call, hlast] at E
      cases hc : fsalDenseCalcState t (.user 0) (q.withWorld w) with
      | err => rw [M.bind_err hc] at E; exact E.elim
      | ub => rw [M.bind_ub hc] at E; exact E.elim
      | div => rw [M.bind_div hc] at E; exact E.elim
      | ok u q2 =>
        rw [M.bind_ok hc] at E
        obtain ⟨-, E⟩ := E
        refine ⟨q2.state (.user 0), q2.world, ?_, ?_⟩
        · simp only [denseObject, hc]
        · have ey : q2.state (.user 0) = dopri5Interpolant s a.t t := by
            rw [E.user 0]; simp
          have eθ : t = lo + (t - lo) / h * h := by field_simp; ring
          have hσh : (t - lo) / h = σ * (t - lo) / (σ * h) := by
            rcases hσ with rfl | rfl
            · rw [one_mul, one_mul]
            · rw [neg_one_mul, neg_one_mul, neg_div_neg_eq]
          refine ⟨s.xOld, lo, h, (t - lo) / h, hr, h1, h2, h3, ?_, ?_, eθ, ?_⟩
          · rw [hσh]; exact div_nonneg (by rw [mul_sub]; linarith) h1.le
          · rw [hσh, div_le_one h1]; rw [mul_add] at p2; rw [mul_sub]; linarith
          · rw [ey, ht]
            conv_lhs => rw [eθ]
            exact dopri5Interpolant_stages f s.xOld lo h _ hh s a.x rfl hlo hk hres

/-- everything a run of the dense output stepper needs -/
theorem dopri5_dense_setup (hs : Evaluates sys f) (hf : GoodRhs f 6) {φ : ℝ → Fin d → ℝ} (hφ : IsFlowLine f φ) (a b ρ : ℝ) :
    ∃ K, ∀ (τ : Tolerances) (maxDt H t0 t1 dt : ℝ) (x0 : Fin d → ℝ), τ.Valid → ‖x0‖ ≤ ρ → t0 ∈ Set.Icc a b → t1 ∈ Set.Icc a b → dt ≠ 0 →
      0 ≤ dirSign dt * (t1 - t0) → StepLimit dt maxDt H t0 t1 →
      ∃ (g : ℝ) (Fail : Prop), 0 < g ∧ g ≤ dirSign dt * dt ∧ (Fail → τ.absolute < K * (9 / 10) ^ 498) ∧
        DenseFn (denseObject (τ.controlUpTo d 5 4 maxDt) sys) (DopriAtStep τ f (dirSign dt) (dirSign dt * t1) H (x0, t0))
          (DopriStepped τ f (dirSign dt) (dirSign dt * t1) H (x0, t0)) (DopriReached τ f (dirSign dt) (dirSign dt * t1) H (x0, t0))
          (DopriStep τ f (dirSign dt) (dirSign dt * t1) H) (DopriBetween τ f (dirSign dt) (dirSign dt * t1) H (x0, t0)) Fail (dirSign dt)
          (dirSign dt * t1) g ∧
        (∀ u, DopriReached τ f (dirSign dt) (dirSign dt * t1) H (x0, t0) u → ‖u.1 - φ u.2‖ ≤ K * (‖x0 - φ t0‖ + H ^ 5)) ∧
        ∀ y t, DopriBetween τ f (dirSign dt) (dirSign dt * t1) H (x0, t0) y t → ‖y - φ t‖ ≤ K * (‖x0 - φ t0‖ + H ^ 5) := by
  have hΦ : IsRkErr f (fun x t h => (dopri5Fun f x (f x t) t h).x) (fun x t h => dopri5Error (f x t) h (dopri5Fun f x (f x t) t h)) := by
    have := stageFn_isRkErr dopri5Tableau dopri5Db f
    simp only [dopri5_errorEstimate]
    simpa only [dopri5Fun_stages] using this
  set B := b - a with hBdef
  obtain ⟨C, hC, hgrow⟩ := hΦ.growth hf a b B
  obtain ⟨D, hD, hglob⟩ := global_error hf (hΦ.isRk.regular hf) hφ
    (fun t => dopri5_order_value (hf.smoothAt (by omega) _ _) (hφ.isSolution t)) a b B B
  obtain ⟨E, hE, hext⟩ := dopri5Extension_uniform hf hφ a b B
  obtain ⟨L, hL, hlip⟩ := dopri5Extension_lipschitz hf B
  set N := Real.exp (C * B) * (1 + |ρ|) with hNdef
  have hN0 : 0 < N := by positivity
  refine ⟨max (D + (L * D + E)) (B * (C * N + 1)), ?_⟩
  set K := max (D + (L * D + E)) (B * (C * N + 1)) with hK
  intro τ maxDt H t0 t1 dt x0 hτ hx0 ht0 ht1 hdt h01 hlim
  set σ := dirSign dt with hσdef
  have hσ : σ = 1 ∨ σ = -1 := by rw [hσdef]; unfold dirSign; split <;> simp
  set T := σ * t1 with hTdef
  have hpos0 : 0 < σ * dt := (sameDir_iff hdt).1 (SameDir.refl hdt)
  have hB0 : 0 ≤ B := by rw [hBdef]; linarith [ht0.1, ht0.2]
  have hB1 : T - σ * t0 ≤ B := by
    rw [hTdef, hBdef]
    rcases hσ with h | h <;> rw [h] <;> linarith [ht0.1, ht0.2, ht1.1, ht1.2]
  have hIcc : ∀ t, 0 ≤ σ * (t - t0) → σ * t ≤ T → t ∈ Set.Icc a b := by
    intro t h1 h2
    rw [hTdef] at h2
    rcases hσ with h | h <;> rw [h] at h1 h2 <;> constructor <;> linarith [ht0.1, ht0.2, ht1.1, ht1.2]
  have hT0 : σ * t0 ≤ T := by rw [mul_sub] at h01; linarith
  have hNx : Real.exp (C * B) * (1 + ‖x0‖) ≤ N :=
    mul_le_mul_of_nonneg_left (by linarith [hx0.trans (le_abs_self ρ)]) (Real.exp_pos _).le
  have hH0 : 0 ≤ H := by
    rcases hlim with h | h
    · exact (abs_nonneg _).trans h.2
    · exact (abs_nonneg _).trans h.2
  have hl : LimitIs σ maxDt (σ * maxDt) := by
    rcases hlim with h | h
    · exact .inl h.1
    · refine .inr ⟨?_, (sameDir_iff hdt).1 h.1⟩
      rcases hσ with h | h <;> rw [h] <;> ring
  have hLH : maxDt ≠ 0 → σ * maxDt ≤ H := by
    intro h0
    obtain ⟨h1, h2⟩ := hlim.resolve_left fun h => h0 h.1
    rwa [abs_of_sign hσ ((sameDir_iff hdt).1 h1).le] at h2
  have hTH : maxDt = 0 → T - σ * t0 ≤ H := by
    intro h0
    rcases hlim with ⟨-, h⟩ | ⟨h, -⟩
    · rw [abs_of_sign hσ h01, mul_sub] at h; exact h
    · rw [h0] at h; rcases h with h | h <;> exact absurd h.2 (lt_irrefl _)
  have hs0 : 0 < τ.absolute / (C * N + 1) := by have := hτ.absolute; positivity
  have hL0 : 0 < (if maxDt = 0 then 1 else σ * maxDt) := by
    split
    · exact one_pos
    · rename_i h0
      exact (hl.resolve_left h0).2
  have hgrow' : ∀ x t h, 0 ≤ σ * (t - t0) → σ * t ≤ T → |h| ≤ B → ‖(dopri5Fun f x (f x t) t h).x - x‖ ≤ C * |h| * (1 + ‖x‖) ∧
      ‖dopri5Error (f x t) h (dopri5Fun f x (f x t) t h)‖ ≤ C * |h| * (1 + ‖x‖) := fun x t h h1 h2 h3 => hgrow x t (hIcc t h1 h2) h h3
  refine ⟨min (τ.absolute / (C * N + 1) / 5) (min (σ * dt) (if maxDt = 0 then 1 else σ * maxDt)), _, lt_min (by positivity) (lt_min hpos0 hL0),
    (min_le_right _ _).trans (min_le_left _ _), ?_,
    dopri5_denseFn hs hτ hσ hl hLH hTH hC hgrow' hB1 hT0 hNx (min_le_left _ _) (fun h0 => ?_), ?_⟩
  · intro hh
    rw [div_lt_iff₀ (by positivity)] at hh
    have h4 : τ.absolute < (9 / 10) ^ 498 * B * (C * N + 1) :=
      hh.trans_le (mul_le_mul_of_nonneg_right (mul_le_mul_of_nonneg_left hB1 (by positivity)) (by positivity))
    have h5 : τ.absolute < B * (C * N + 1) * (9 / 10) ^ 498 := by
      generalize ((9 : ℝ) / 10) ^ 498 = z at h4 ⊢
      linarith
    exact h5.trans_le (mul_le_mul_of_nonneg_right (le_max_right _ _) (by positivity))
  · refine (min_le_right _ _).trans ((min_le_right _ _).trans ?_)
    rw [if_neg h0]
  · have hreach : ∀ u, DopriReached τ f σ T H (x0, t0) u → ‖u.1 - φ u.2‖ ≤ D * (‖x0 - φ t0‖ + H ^ 5) := by
      intro v hv
      obtain ⟨n, u, hu0, hun, hu⟩ := reflTransGen_sequence hv
      have hmono : ∀ i, i ≤ n → 0 ≤ σ * ((u i).2 - t0) ∧ σ * (u i).2 ≤ T := by
        intro i
        induction i with
        | zero => intro _; rw [hu0]; exact ⟨by simp, hT0⟩
        | succ i ih =>
          intro hi
          have h1 := (hu i (by omega)).pos
          have h2 := ih (by omega)
          refine ⟨?_, (hu i (by omega)).time⟩
          have e : σ * ((u (i + 1)).2 - t0) = σ * ((u (i + 1)).2 - (u i).2) + σ * ((u i).2 - t0) := by ring
          rw [e]; linarith
      have habs : ∀ i, i < n → |(u (i + 1)).2 - (u i).2| = σ * (u (i + 1)).2 - σ * (u i).2 := by
        intro i hi
        rw [abs_of_sign hσ (hu i hi).pos.le, mul_sub]
      have hsum : ∀ m, m ≤ n → ∑ i ∈ range m, |(u (i + 1)).2 - (u i).2| = σ * (u m).2 - σ * t0 := by
        intro m
        induction m with
        | zero => intro _; rw [hu0]; simp
        | succ m ih => intro hm; rw [sum_range_succ, ih (by omega), habs m (by omega)]; ring
      have hHB : ∀ i, i < n → |(u (i + 1)).2 - (u i).2| ≤ min H B := by
        intro i hi
        refine le_min ?_ ?_
        · rw [abs_of_sign hσ (hu i hi).pos.le]; exact (hu i hi).le
        rw [habs i hi]
        have h1 := (hmono (i + 1) (by omega)).2
        have h2 := (hmono i (by omega)).1
        rw [mul_sub] at h2
        linarith
      have key := hglob n (fun i => (u i).2) (fun i => (u i).1) (min H B) (min_le_right _ _)
        (fun i hi => ⟨hIcc _ (hmono i hi.le).1 (hmono i hi.le).2, hHB i hi, (hu i hi).state⟩)
        (by rw [hsum n le_rfl]; have := (hmono n le_rfl).2; linarith) (le_min hH0 hB0)
      rw [hu0, hun] at key
      exact key.trans (mul_le_mul_of_nonneg_left (add_le_add le_rfl (pow_le_pow_left₀ (le_min hH0 hB0) (min_le_left _ _) 5)) hD)
    have hS : 0 ≤ ‖x0 - φ t0‖ + H ^ 5 := by positivity
    refine ⟨fun u hu => (hreach u hu).trans (mul_le_mul_of_nonneg_right (le_trans ?_ (le_max_left _ _)) hS), ?_⟩
    · have : 0 ≤ L * D + E := by positivity
      linarith
    · rintro y t ⟨x, lo, h, θ, hr, h1, h2, h3, h4, h5, rfl, rfl⟩
      obtain ⟨b1, b2, -⟩ := hr.bound hσ hC (fun x t h a b c => (hgrow' x t h a b c).1) hB1 hT0
      dsimp only at b1 b2
      have habs := abs_of_sign hσ h1.le
      have hhB : |h| ≤ B := by
        rw [habs]; rw [mul_add] at h3; rw [mul_sub] at b1; linarith
      have e1 := hlip x (φ lo) lo h hhB θ ⟨h4, h5⟩
      have e2 := hext lo (hIcc lo b1 b2) θ ⟨h4, h5⟩ h hhB
      have e3 := hreach _ hr
      dsimp only at e3
      have e4 : |h| ^ 5 ≤ H ^ 5 := pow_le_pow_left₀ (abs_nonneg _) (habs.trans_le h2) 5
      have e5 := norm_sub_le_norm_sub_add_norm_sub (dopri5Extension f x lo h θ) (dopri5Extension f (φ lo) lo h θ) (φ (lo + θ * h))
      have e6 : L * ‖x - φ lo‖ ≤ L * (D * (‖x0 - φ t0‖ + H ^ 5)) := mul_le_mul_of_nonneg_left e3 hL
      have e7 : E * |h| ^ 5 ≤ E * (‖x0 - φ t0‖ + H ^ 5) := mul_le_mul_of_nonneg_left (e4.trans (by linarith [norm_nonneg (x0 - φ t0)])) hE
      have e8 : (D + (L * D + E)) * (‖x0 - φ t0‖ + H ^ 5) ≤ K * (‖x0 - φ t0‖ + H ^ 5) := mul_le_mul_of_nonneg_right (le_max_left _ _) hS
      have e9 : 0 ≤ D * (‖x0 - φ t0‖ + H ^ 5) := by positivity
      linarith

end Contract

end Verif
