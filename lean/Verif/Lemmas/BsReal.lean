import Verif.Spec.RealOps
import Verif.Spec.BulirschStoer
import Verif.Lemmas.BulirschStoer
import Verif.Lemmas.ControlledGridRun

/-! # The step size control of `bulirsch_stoer` in real arithmetic -/

namespace Verif

theorem bs_root_bounds {a b e : ℝ} {n : ℕ} (hn : 1 ≤ n) (ha : 0 ≤ a) (he : 0 ≤ e) :
    (e ≤ a ^ n → e ^ (1 / (n : ℝ)) ≤ a) ∧ (0 ≤ b → b ^ n ≤ e → b ≤ e ^ (1 / (n : ℝ))) := by
  have hn0 : (n : ℝ) ≠ 0 := by positivity
  have hroot : ∀ c : ℝ, 0 ≤ c → (c ^ n) ^ (1 / (n : ℝ)) = c := by
    intro c hc
    rw [← Real.rpow_natCast, ← Real.rpow_mul hc, mul_one_div_cancel hn0, Real.rpow_one]
  constructor
  · intro h
    calc e ^ (1 / (n : ℝ)) ≤ (a ^ n) ^ (1 / (n : ℝ)) := Real.rpow_le_rpow he h (by positivity)
      _ = a := hroot a ha
  · intro hb h
    calc b = (b ^ n) ^ (1 / (n : ℝ)) := (hroot b hb).symm
      _ ≤ e ^ (1 / (n : ℝ)) := Real.rpow_le_rpow (by positivity) h (by positivity)

theorem bsFacmin_bounds {k : ℕ} (hk : 1 ≤ k) : 1 / 5 ≤ bsFacmin (realOps 0) k ∧ bsFacmin (realOps 0) k ≤ 1 := by
  have e : bsFacmin (realOps 0) k = (2 / 100 : ℝ) ^ (1 / ((2 * k + 1 : ℕ) : ℝ)) := by
    simp [bsFacmin, realOps, frac, lit]
  rw [e]
  refine ⟨(bs_root_bounds (a := 0) (n := 2 * k + 1) (by omega) le_rfl (by norm_num)).2 (by norm_num) ?_,
    (bs_root_bounds (b := 0) (n := 2 * k + 1) (by omega) zero_le_one (by norm_num)).1 (by norm_num)⟩
  calc (1 / 5 : ℝ) ^ (2 * k + 1) ≤ (1 / 5) ^ 3 := pow_le_pow_of_le_one (by norm_num) (by norm_num) (by omega)
    _ ≤ 2 / 100 := by norm_num

/-- the factor of `calc_h_opt` -/
theorem bsFac_bounds {e : ℝ} (he : 0 ≤ e) {k : ℕ} (hk : 1 ≤ k) (hk8 : k ≤ 8) :
    1 / 20 ≤ bsFac bsRules (realOps 0) e k ∧ (1 ≤ e → bsFac bsRules (realOps 0) e k ≤ 23 / 25) ∧ (e ≤ 1 / 5 → 1 ≤ bsFac bsRules (realOps 0) e k) := by
  obtain ⟨hm5, hm1⟩ := bsFacmin_bounds hk
  have hinv : 1 ≤ 1 / bsFacmin (realOps 0) k := by rw [le_div_iff₀ (by linarith)]; linarith
  by_cases h0 : e = 0
  · have : bsFac bsRules (realOps 0) e k = 1 / bsFacmin (realOps 0) k := by
      unfold bsFac
      rw [if_pos (by simp [realOps, h0, lit])]
      simp [lit]
    rw [this]
    exact ⟨by linarith, fun h => by linarith, fun _ => hinv⟩
  · have hfac : bsFac bsRules (realOps 0) e k =
        max (bsFacmin (realOps 0) k / 4) (min (1 / bsFacmin (realOps 0) k) (94 / 100 / (e / (65 / 100)) ^ (1 / ((2 * k + 1 : ℕ) : ℝ)))) := by
      unfold bsFac
      rw [if_neg (by simp [realOps, h0, lit])]
      have h1 : ∀ a b : ℝ, (realOps 0).max a b = max a b := by
        intro a b
        show (if decide (a < b) = true then b else a) = _
        by_cases h : a < b
        · rw [if_pos (by simpa using h), max_eq_right h.le]
        · rw [if_neg (by simpa using h), max_eq_left (not_lt.1 h)]
      have h2 : ∀ a b : ℝ, (realOps 0).min a b = min a b := by
        intro a b
        show (if decide (b < a) = true then b else a) = _
        by_cases h : b < a
        · rw [if_pos (by simpa using h), min_eq_right h.le]
        · rw [if_neg (by simpa using h), min_eq_left (not_lt.1 h)]
      rw [h1, h2]
      simp [bsRules, realOps, frac, lit]
    rw [hfac]
    have hpos : 0 < e := lt_of_le_of_ne he (Ne.symm h0)
    have hr0 : 0 < (e / (65 / 100)) ^ (1 / ((2 * k + 1 : ℕ) : ℝ)) := Real.rpow_pos_of_pos (by positivity) _
    have hb := bs_root_bounds (a := 94 / 100) (b := 47 / 46) (e := e / (65 / 100)) (n := 2 * k + 1) (by omega) (by norm_num) (by positivity)
    refine ⟨le_max_of_le_left (by linarith), fun h => max_le (by linarith) ((min_le_right _ _).trans ?_), fun h => le_max_of_le_right (le_min hinv ?_)⟩
    · have h2 : (47 / 46 : ℝ) ^ (2 * k + 1) ≤ (47 / 46) ^ 17 := pow_le_pow_right₀ (by norm_num) (by omega)
      have h1 := hb.2 (by norm_num) (by
        rw [le_div_iff₀ (by norm_num)]
        have : (47 / 46 : ℝ) ^ 17 * (65 / 100) ≤ 1 := by norm_num
        nlinarith)
      rw [div_le_iff₀ hr0]
      linarith
    · have h2 : (94 / 100 : ℝ) ^ 17 ≤ (94 / 100) ^ (2 * k + 1) := pow_le_pow_of_le_one (by norm_num) (by norm_num) (by omega)
      have h1 := hb.1 (by
        rw [div_le_iff₀ (by norm_num)]
        have : (1 / 5 : ℝ) ≤ (94 / 100) ^ 17 * (65 / 100) := by norm_num
        nlinarith)
      rw [le_div_iff₀ hr0]
      linarith

theorem bsCost_mono (R : BsRules ℝ) {i j : ℕ} (h : i ≤ j) : bsCost R i ≤ bsCost R j := by
  induction h with
  | refl => exact le_rfl
  | step h ih => exact ih.trans (Nat.le_add_right _ _)

/-- The step size proposed by the loop over the stages: at least a twentieth of the old one; at most 0.92 of it after a rejection; not less than the
old one if all errors are at most 1/5; then there is no rejection. -/
theorem LoopEnd.newH_real {c : BsCtl ℝ} {dt e : ℝ} {PE : ℝ → Prop} {k : ℕ} {b : BsBreak ℝ} (hPE : ∀ e, PE e → 0 ≤ e) (he : PE e)
    (hL : LoopEnd bsRules (realOps 0) c dt PE k e b) :
    ∃ q : ℝ, b.newH = dt * q ∧ 1 / 20 ≤ q ∧ (b.reject = true → q ≤ 23 / 25) ∧ ((∀ e, PE e → e ≤ 1 / 5) → 1 ≤ q ∧ b.reject = false) := by
  have hlt : ∀ e : ℝ, (realOps 0).lt e (lit 1) = false ↔ 1 ≤ e := by
    intro e
    show decide (e < ((1 : ℤ) : ℝ)) = false ↔ _
    simp
  cases hb : b.reject with
  | true =>
    obtain ⟨h0, j, e', h1, h2, h3, h4, h5⟩ := hL.rej hb
    obtain ⟨b1, b2, b3⟩ := bsFac_bounds (hPE _ h3) h1 h2
    refine ⟨_, h5, b1, fun _ => b2 ((hlt _).1 h4), fun h => ?_⟩
    have h6 := h e he
    have h7 := (hlt _).1 h0
    linarith
  | false =>
    obtain ⟨-, j, e', h1, h2, h3, h5⟩ := hL.acc hb
    obtain ⟨b1, b2, b3⟩ := bsFac_bounds (hPE _ h3) h1 h2
    rcases h5 with h5 | ⟨a, ha, h5⟩
    · exact ⟨_, h5, b1, fun h => (nomatch h), fun h => ⟨b3 (h _ h3), rfl⟩⟩
    · have c2 : (0 : ℝ) < bsCost (bsRules : BsRules ℝ) j := by
        have : 0 < bsCost (bsRules : BsRules ℝ) j := by
          cases j with
          | zero => show 0 < interval 0; unfold interval; omega
          | succ j => exact Nat.add_pos_right _ (by show 0 < interval _; unfold interval; omega)
        exact_mod_cast this
      have c1 : (bsCost (bsRules : BsRules ℝ) j : ℝ) ≤ bsCost (bsRules : BsRules ℝ) a := by exact_mod_cast bsCost_mono _ ha
      have c3 : 1 ≤ (bsCost (bsRules : BsRules ℝ) a : ℝ) / bsCost (bsRules : BsRules ℝ) j := (one_le_div c2).2 c1
      refine ⟨bsFac bsRules (realOps 0) e' j * ((bsCost (bsRules : BsRules ℝ) a : ℝ) / bsCost (bsRules : BsRules ℝ) j), ?_, ?_, fun h => (nomatch h),
        fun h => ⟨?_, rfl⟩⟩
      · rw [h5]
        simp only [bsRules, bsCalcHopt, lit]
        push_cast
        ring
      · exact b1.trans (le_mul_of_one_le_right (by linarith) c3)
      · exact (b3 (h _ h3)).trans (le_mul_of_one_le_right (by linarith) c3)

end Verif
