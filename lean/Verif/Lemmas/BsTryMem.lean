import Verif.Spec.BulirschStoerRun
import Verif.Lemmas.BsTryReal
import Verif.Lemmas.ReliableRun

/-! # The tries of `bulirsch_stoer` during an integration -/

namespace Verif
open Finset

variable {W U : Type} {d : ℕ}

/-- The global error of a family of one-step methods of order `p`, one of which is chosen in each step. -/
theorem global_error_family {V : Type} [NormedAddCommGroup V] [NormedSpace ℝ V] [CompleteSpace V] {p : ℕ} {f : V → ℝ → V} (hf : GoodRhs f (p + 1))
    (S : Finset ℕ) {Φ : ℕ → V → ℝ → ℝ → V} (hΦ : ∀ k ∈ S, RegularStep (p + 1) (Φ k))
    {φ : ℝ → V} (hφ : IsFlowLine f φ) (hord : ∀ k ∈ S, ∀ t, LocalOrder p (Φ k (φ t) t) t φ) (a b T B : ℝ) :
    ∃ C, 0 ≤ C ∧ ∀ (n : ℕ) (t : ℕ → ℝ) (X : ℕ → V) (H : ℝ), H ≤ B →
      (∀ i < n, t i ∈ Set.Icc a b ∧ |t (i + 1) - t i| ≤ H ∧ ∃ k ∈ S, X (i + 1) = Φ k (X i) (t i) (t (i + 1) - t i)) →
      ∑ i ∈ range n, |t (i + 1) - t i| ≤ T → 0 ≤ H →
      ‖X n - φ (t n)‖ ≤ C * (‖X 0 - φ (t 0)‖ + H ^ p) := by
  have hloc0 : ∀ k, ∃ M, 0 ≤ M ∧ (k ∈ S → ∀ t ∈ Set.Icc a b, ∀ h, |h| ≤ B → ‖Φ k (φ t) t h - φ (t + h)‖ ≤ M * |h| ^ (p + 1)) := by
    intro k
    by_cases hk : k ∈ S
    · obtain ⟨M, hM, h⟩ := local_error_uniform hf (hΦ k hk) hφ (hord k hk) a b B
      exact ⟨M, hM, fun _ => h⟩
    · exact ⟨0, le_rfl, fun h => absurd h hk⟩
  have hlip0 : ∀ k, ∃ L, 0 ≤ L ∧ (k ∈ S → ∀ x y t h, |h| ≤ B → ‖Φ k x t h - Φ k y t h‖ ≤ (1 + L * |h|) * ‖x - y‖) := by
    intro k
    by_cases hk : k ∈ S
    · obtain ⟨M, hM, h⟩ := (hΦ k hk).lipschitz B
      exact ⟨M, hM, fun _ => h⟩
    · exact ⟨0, le_rfl, fun h => absurd h hk⟩
  choose m hm hloc1 using hloc0
  choose c hc hlip1 using hlip0
  set M := ∑ k ∈ S, m k with hMdef
  set L := ∑ k ∈ S, c k with hLdef
  have hM : 0 ≤ M := sum_nonneg fun k _ => hm k
  have hL : 0 ≤ L := sum_nonneg fun k _ => hc k
  have hmM : ∀ k ∈ S, m k ≤ M := fun k hk => single_le_sum (f := m) (fun k _ => hm k) hk
  have hcL : ∀ k ∈ S, c k ≤ L := fun k hk => single_le_sum (f := c) (fun k _ => hc k) hk
  refine ⟨Real.exp (L * T) * (1 + M * |T|), by positivity, ?_⟩
  intro n t X H hH hstep hT hH0
  have hT0 : 0 ≤ T := (sum_nonneg fun i _ => abs_nonneg _).trans hT
  have key := error_growth (p := p) (H := H) hL hM (fun i => ‖X i - φ (t i)‖) (fun i => |t (i + 1) - t i|) n
    (fun i hi => ⟨abs_nonneg _, (hstep i hi).2.1⟩) (fun i hi => ?_) (fun _ _ => norm_nonneg _)
  · refine key.trans ?_
    have h1 : Real.exp (L * ∑ i ∈ range n, |t (i + 1) - t i|) ≤ Real.exp (L * T) :=
      Real.exp_le_exp.2 (mul_le_mul_of_nonneg_left hT hL)
    rw [mul_assoc (Real.exp (L * T))]
    refine mul_le_mul h1 ?_ (by positivity) (Real.exp_pos _).le
    have h2 : M * (∑ i ∈ range n, |t (i + 1) - t i|) * H ^ p ≤ M * T * H ^ p :=
      mul_le_mul_of_nonneg_right (mul_le_mul_of_nonneg_left hT hM) (by positivity)
    rw [abs_of_nonneg hT0]
    nlinarith [norm_nonneg (X 0 - φ (t 0)), mul_nonneg hM hT0, pow_nonneg hH0 p, mul_nonneg (mul_nonneg hM hT0) (norm_nonneg (X 0 - φ (t 0)))]
  · obtain ⟨h1, h2, k, hk, h3⟩ := hstep i hi
    have h4 := hlip1 k hk (X i) (φ (t i)) (t i) _ (h2.trans hH)
    have h5 := hloc1 k hk (t i) h1 _ (h2.trans hH)
    rw [add_sub_cancel] at h5
    have h6 : (1 + c k * |t (i + 1) - t i|) * ‖X i - φ (t i)‖ ≤ (1 + L * |t (i + 1) - t i|) * ‖X i - φ (t i)‖ :=
      mul_le_mul_of_nonneg_right (add_le_add le_rfl (mul_le_mul_of_nonneg_right (hcL k hk) (abs_nonneg _))) (norm_nonneg _)
    have h7 : m k * |t (i + 1) - t i| ^ (p + 1) ≤ M * |t (i + 1) - t i| ^ (p + 1) := mul_le_mul_of_nonneg_right (hmM k hk) (by positivity)
    rw [h3]
    refine (le_of_eq ?_).trans ((norm_add_le _ _).trans (add_le_add (h4.trans h6) (h5.trans h7)))
    congr 1
    abel

theorem le_normInf : ∀ (vs : List ℝ) (i : ℝ), i ≤ normInf (realOps 0) i vs := by
  intro vs
  induction vs with
  | nil => intro i; exact le_rfl
  | cons v vs ih =>
    intro i
    rw [normInf]
    refine le_trans ?_ (ih _)
    unfold NumOps.max
    split
    · rename_i h
      have : i < |v| := by simpa [realOps] using h
      exact this.le
    · exact le_rfl

theorem checker_nonneg (τ : Tolerances) (x k e : Fin d → ℝ) (dt : ℝ) : 0 ≤ ((τ.checker d).error x k e dt).2 := by
  have := le_normInf (relErrorLoop (realOps 0) τ.absolute τ.relative τ.aX (τ.aDxdt * |dt|) (List.ofFn e) (List.ofFn x) (List.ofFn k)) ((0 : ℤ) : ℝ)
  rw [Int.cast_zero] at this
  simpa [Tolerances.checker, defaultErrorChecker, realOps, lit] using this

theorem dirSign_of_pos {σ h : ℝ} (hσ : σ = 1 ∨ σ = -1) (hh : 0 < σ * h) : dirSign h = σ := by
  unfold dirSign
  rcases hσ with rfl | rfl
  · rw [if_pos (by linarith)]
  · rw [if_neg (by linarith)]

theorem bsTooLong_iff {V : Type} {P : BsParams ℝ V} (hP : P.ops = realOps 0) {σ L h : ℝ} (hσ : σ = 1 ∨ σ = -1) (hlim : LimitIs σ P.maxDt L) (hh : 0 < σ * h) :
    bsTooLong P h = true ↔ P.maxDt ≠ 0 ∧ L < σ * h := by
  have e : P.ops.time = TimeArith.exact ℝ 0 := by rw [hP]; simp [NumOps.time, TimeArith.exact, realOps, lit]
  unfold bsTooLong
  rw [Bool.and_eq_true, e, exact_less, dirSign_of_pos hσ hh, hP]
  have h1 : (!(realOps 0).eq P.maxDt (lit 0)) = true ↔ P.maxDt ≠ 0 := by simp [realOps, lit]
  rw [h1]
  refine and_congr_right fun h0 => ?_
  obtain ⟨e, -⟩ := hlim.resolve_left h0
  have : σ * P.maxDt = L := by rw [e]; rcases hσ with h | h <;> rw [h] <;> ring
  rw [mul_sub, this, sub_pos]

/-- The step size after a try. -/
theorem bsResult_dt {V : Type} {P : BsParams ℝ V} (hP : P.ops = realOps 0) {σ L h q t : ℝ} (hσ : σ = 1 ∨ σ = -1) (hlim : LimitIs σ P.maxDt L) (hh : 0 < σ * h)
    (hL : σ * h ≤ L) {c : BsCtl ℝ} {b : BsBreak ℝ} (hq : b.newH = h * q) (hq0 : 0 < q) :
    min (σ * h * min 1 q) L ≤ σ * (bsResult P c b t h).dt ∧ (q < 1 → σ * (bsResult P c b t h).dt ≤ σ * h * q) := by
  have e : P.ops.time = TimeArith.exact ℝ 0 := by rw [hP]; simp [NumOps.time, TimeArith.exact, realOps, lit]
  have hn : σ * b.newH = σ * h * q := by rw [hq]; ring
  have hnp : 0 < σ * b.newH := by rw [hn]; positivity
  have hup : bsUpdates P c b h = false → 1 ≤ q := by
    intro hf
    unfold bsUpdates at hf
    rw [Bool.or_eq_false_iff, e, exact_less_false, dirSign_of_pos hσ hh, mul_sub, hn] at hf
    have := hf.2
    by_contra hlt
    have : σ * h * q < σ * h * 1 := mul_lt_mul_of_pos_left (not_le.1 hlt) hh
    linarith
  have hnew : σ * bsNewDt P b = if P.maxDt = 0 then σ * b.newH else min L (σ * b.newH) := by
    unfold bsNewDt
    rw [e, hP]
    by_cases h0 : P.maxDt = 0
    · rw [if_pos (by simp [realOps, lit, h0]), if_pos h0]
    · rw [if_neg (by simp [realOps, lit, h0]), if_neg h0]
      obtain ⟨e, hL0⟩ := hlim.resolve_left h0
      have : σ * P.maxDt = L := by rw [e]; rcases hσ with h | h <;> rw [h] <;> ring
      rw [minAbs_sign hσ (by rw [this]; exact hL0), this]
  have hm1 : σ * h * min 1 q ≤ σ * h * q := mul_le_mul_of_nonneg_left (min_le_right _ _) hh.le
  have hm2 : σ * h * min 1 q ≤ σ * h * 1 := mul_le_mul_of_nonneg_left (min_le_left _ _) hh.le
  have hdt : (bsResult P c b t h).dt = if bsUpdates P c b h then bsNewDt P b else h := rfl
  rw [hdt]
  cases hu : bsUpdates P c b h with
  | false =>
    refine ⟨(min_le_left _ _).trans (by simpa using hm2), fun hlt => absurd hlt (not_lt.2 (hup hu))⟩
  | true =>
    rw [if_pos rfl, hnew, hn]
    split
    · exact ⟨(min_le_left _ _).trans hm1, fun _ => le_rfl⟩
    · exact ⟨le_min (min_le_right _ _) ((min_le_left _ _).trans hm1), fun _ => min_le_right _ _⟩

end Verif
