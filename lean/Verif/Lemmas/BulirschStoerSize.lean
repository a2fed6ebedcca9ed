import Verif.Spec.BulirschStoer
import Verif.Lemmas.BulirschStoer
import Verif.Props.PidAdjust

/-!
# The step size control of the Bulirsch-Stoer steppers in extended real arithmetic
-/

namespace Verif
set_option linter.unusedSectionVars false
open XR

theorem XR.lit_fin (n : ℤ) : (lit n : XR) = fin n := rfl

theorem XR.fin_mul (x y : ℝ) : (fin x * fin y : XR) = fin (x * y) := rfl

theorem XR.fin_sub (x y : ℝ) : (fin x - fin y : XR) = fin (x - y) := by
  show fin (x + -y) = _
  rw [sub_eq_add_neg]

theorem XR.frac_fin (p q : ℤ) (hq : q ≠ 0) : (frac p q : XR) = fin (p / q) := by
  unfold frac
  rw [XR.lit_fin, XR.lit_fin, XR.fin_div (by exact_mod_cast hq)]

theorem XR.NonNeg.le {x : XR} (h : x.NonNeg) : XR.le (fin 0) x = true := by
  cases x with
  | nan => exact h.elim
  | inf s => have : s = false := h; subst this; rfl
  | fin x => exact decide_eq_true h

/-- `calc_h_opt` multiplies the step by a factor `0 < q`; `q ≤ 47/50` if the error is not below 1. -/
theorem bsCalcHopt_xr (R : BsRules XR) (pow : XR → XR → XR) (eps : XR) (hP : PowOk R pow eps) (d : ℝ) (e : XR) (he : e.NonNeg) (k : ℕ)
    (hk1 : 1 ≤ k) (hk2 : k ≤ 8) :
    ∃ q : ℝ, 0 < q ∧ bsCalcHopt R (ops pow eps) (fin d) e k = fin (d * q) ∧ (XR.lt e (fin 1) = false → q ≤ 47 / 50) := by
  obtain ⟨m, hm0, hm1, hm⟩ := hP.facmin k hk1 hk2
  suffices h : ∃ q : ℝ, 0 < q ∧ bsFac R (ops pow eps) e k = fin q ∧ (XR.lt e (fin 1) = false → q ≤ 47 / 50) by
    obtain ⟨q, h1, h2, h3⟩ := h
    exact ⟨q, h1, by unfold bsCalcHopt; rw [h2, XR.fin_mul], h3⟩
  have hinv : (lit 1 / fin m : XR) = fin (1 / m) := by rw [XR.lit_fin, XR.fin_div hm0.ne']; simp
  have h4 : (fin m / lit 4 : XR) = fin (m / 4) := by rw [XR.lit_fin, XR.fin_div (by norm_num)]; norm_num
  unfold bsFac
  rw [hm, hinv, h4]
  by_cases h0 : (ops pow eps).eq e (lit 0) = true
  · rw [if_pos h0]
    refine ⟨1 / m, by positivity, rfl, ?_⟩
    intro hlt
    have : e = fin 0 := by
      cases e with
      | nan => cases h0
      | inf s => cases h0
      | fin x =>
        have : decide (x = ((0 : ℤ) : ℝ)) = true := h0
        rw [decide_eq_true_eq] at this
        rw [this]
        simp
    subst this
    have : decide ((0 : ℝ) < 1) = false := hlt
    rw [decide_eq_false_iff_not] at this
    exact absurd one_pos this
  · rw [if_neg h0]
    have hfr : (frac 65 100 : XR) = fin (65 / 100) := by rw [XR.frac_fin _ _ (by norm_num)]; norm_num
    have hfr2 : (frac 94 100 : XR) = fin (94 / 100) := by rw [XR.frac_fin _ _ (by norm_num)]; norm_num
    rw [hfr, hfr2]
    -- the argument of `pow`
    have ha : XR.le (fin 0) (e / fin (65 / 100)) = true ∧ (XR.lt e (fin 1) = false → XR.lt (fin 1) (e / fin (65 / 100)) = true) := by
      cases e with
      | nan => exact he.elim
      | inf s =>
        have hs : s = false := he
        subst hs
        have : (inf false / fin (65 / 100) : XR) = inf false := by
          show inf (xor false (negative (65 / 100))) = _
          have : negative (65 / 100) = false := by unfold negative; norm_num
          rw [this]; rfl
        rw [this]
        exact ⟨rfl, fun _ => rfl⟩
      | fin x =>
        have hx : 0 ≤ x := he
        rw [XR.fin_div (by norm_num)]
        refine ⟨decide_eq_true (by positivity), fun h => ?_⟩
        have h : decide (x < 1) = false := h
        rw [decide_eq_false_iff_not] at h
        refine decide_eq_true ?_
        rw [lt_div_iff₀ (by norm_num)]
        linarith
    have hp1 := hP.nonneg _ k hk1 hk2 ha.1
    have hp2 : XR.lt e (fin 1) = false → XR.le (fin 1) (pow (e / fin (65 / 100)) (R.expo k)) = true := fun h => hP.one_le _ k hk1 hk2 (ha.2 h)
    show ∃ q : ℝ, 0 < q ∧ (ops pow eps).max (fin (m / 4)) ((ops pow eps).min (fin (1 / m)) (fin (94 / 100) / pow (e / fin (65 / 100)) (R.expo k))) = fin q ∧ _
    generalize pow (e / fin (65 / 100)) (R.expo k) = p at hp1 hp2
    -- the quotient
    have hv : (∃ v : ℝ, 0 ≤ v ∧ (fin (94 / 100) / p : XR) = fin v ∧ (XR.lt e (fin 1) = false → v ≤ 94 / 100)) ∨
        ((fin (94 / 100) / p : XR) = inf false ∧ XR.lt e (fin 1) = true) := by
      cases p with
      | nan => cases hp1
      | inf s => exact Or.inl ⟨0, le_rfl, rfl, fun _ => by norm_num⟩
      | fin x =>
        have hx : 0 ≤ x := of_decide_eq_true hp1
        by_cases hx0 : x = 0
        · subst hx0
          right
          refine ⟨?_, ?_⟩
          · show (if (0 : ℝ) = 0 then (if (94 / 100 : ℝ) = 0 then nan else inf (negative (94 / 100))) else _ : XR) = _
            rw [if_pos rfl, if_neg (by norm_num)]
            have : negative (94 / 100) = false := by unfold negative; norm_num
            rw [this]
          · by_contra hlt
            have := hp2 (Bool.eq_false_iff.mpr hlt)
            have : (1 : ℝ) ≤ 0 := of_decide_eq_true this
            linarith
        · left
          refine ⟨94 / 100 / x, by positivity, XR.fin_div hx0, fun hlt => ?_⟩
          have h1 : (1 : ℝ) ≤ x := of_decide_eq_true (hp2 hlt)
          rw [div_le_iff₀ (by linarith)]
          nlinarith
    rcases hv with ⟨v, hv0, hv, hv1⟩ | ⟨hv, hlt⟩
    · rw [hv]
      have hmin : (ops pow eps).min (fin (1 / m)) (fin v) = fin (min v (1 / m)) := by
        show (if decide (v < 1 / m) = true then fin v else fin (1 / m)) = _
        by_cases h : v < 1 / m
        · rw [if_pos (decide_eq_true h), min_eq_left h.le]
        · rw [if_neg (by simpa using h), min_eq_right (not_lt.mp h)]
      rw [hmin]
      have hmax : (ops pow eps).max (fin (m / 4)) (fin (min v (1 / m))) = fin (max (m / 4) (min v (1 / m))) := by
        show (if decide (m / 4 < min v (1 / m)) = true then fin (min v (1 / m)) else fin (m / 4)) = _
        by_cases h : m / 4 < min v (1 / m)
        · rw [if_pos (decide_eq_true h), max_eq_right h.le]
        · rw [if_neg (by simpa using h), max_eq_left (not_lt.mp h)]
      rw [hmax]
      refine ⟨_, lt_of_lt_of_le (by positivity) (le_max_left _ _), rfl, fun hlt => ?_⟩
      have := hv1 hlt
      refine max_le (by linarith) ((min_le_left _ _).trans (by linarith))
    · rw [hv]
      have hmin : (ops pow eps).min (fin (1 / m)) (inf false) = fin (1 / m) := rfl
      rw [hmin]
      have hmax : (ops pow eps).max (fin (m / 4)) (fin (1 / m)) = fin (1 / m) := by
        show (if decide (m / 4 < 1 / m) = true then fin (1 / m) else fin (m / 4)) = _
        rw [if_pos (decide_eq_true ?_)]
        have : 1 ≤ 1 / m := by rw [le_div_iff₀ hm0]; linarith
        linarith
      rw [hmax]
      exact ⟨1 / m, by positivity, rfl, fun h => absurd hlt (by rw [h]; simp)⟩

/-- `m_cost` is positive -/
theorem bsCost_pos (R : BsRules XR) (h : ∀ i, 0 < R.steps i) (i : ℕ) : 0 < bsCost R i := by
  cases i with
  | zero => exact h 0
  | succ i => exact Nat.add_pos_right _ (h _)

/-- After the loop the proposed step is the old one times a positive factor, at most `47/50` for a rejected try. -/
theorem LoopEnd.newH_xr {R : BsRules XR} {pow : XR → XR → XR} {eps : XR} (hP : PowOk R pow eps) (hR : ∀ i, 0 < R.steps i)
    (hg : ∀ h a b : ℝ, b ≠ 0 → R.grow (fin h) (fin a) (fin b) = fin (h * (a / b)))
    {c : BsCtl XR} {d : ℝ} {k : ℕ} {e : XR} {b : BsBreak XR} (hL : LoopEnd R (ops pow eps) c (fin d) XR.NonNeg k e b) :
    ∃ q : ℝ, 0 < q ∧ b.newH = fin (d * q) ∧ (b.reject = true → q ≤ 47 / 50) := by
  cases hb : b.reject with
  | true =>
    obtain ⟨-, j, e', h1, h2, h3, h4, h5⟩ := hL.rej hb
    obtain ⟨q, q1, q2, q3⟩ := bsCalcHopt_xr R pow eps hP d e' h3 j h1 h2
    refine ⟨q, q1, h5.trans q2, fun _ => q3 ?_⟩
    have : (ops pow eps).lt e' (lit 1) = XR.lt e' (fin 1) := by rw [XR.lit_fin]; simp [ops]
    rw [← this]
    exact h4
  | false =>
    obtain ⟨-, j, e', h1, h2, h3, h5⟩ := hL.acc hb
    obtain ⟨q, q1, q2, -⟩ := bsCalcHopt_xr R pow eps hP d e' h3 j h1 h2
    rw [q2] at h5
    rcases h5 with h5 | ⟨a, -, h5⟩
    · exact ⟨q, q1, h5, fun h => nomatch h⟩
    · have c1 : (0 : ℝ) < bsCost R a := by exact_mod_cast bsCost_pos R hR a
      have c2 : (0 : ℝ) < bsCost R j := by exact_mod_cast bsCost_pos R hR j
      refine ⟨q * (bsCost R a / bsCost R j), by positivity, ?_, fun h => nomatch h⟩
      rw [h5, XR.lit_fin, XR.lit_fin, hg _ _ _ (by exact_mod_cast c2.ne')]
      congr 1
      push_cast
      ring

/-- `less_with_sign( q dt , dt , dt )` -/
theorem lessWithSign_xr (pow : XR → XR → XR) (ε d q : ℝ) :
    (ops pow (fin ε)).time.lessWithSign (fin (d * q)) (fin d) (fin d) = decide (ε < (1 - q) * |d|) := by
  unfold TimeArith.lessWithSign
  show (if decide (((0 : ℤ) : ℝ) < d) = true then XR.lt (fin ε) (fin d - fin (d * q)) else XR.lt (fin ε) (fin (d * q) - fin d)) = _
  rw [XR.fin_sub, XR.fin_sub]
  by_cases h : 0 < d
  · rw [if_pos (decide_eq_true (by exact_mod_cast h))]
    show decide (ε < d - d * q) = _
    rw [abs_of_pos h]
    congr 2
    ring
  · rw [if_neg (by simpa using h)]
    show decide (ε < d * q - d) = _
    rw [abs_of_nonpos (not_lt.mp h)]
    congr 2
    ring

/-- `min_abs( max_dt , q dt )` for a limit in the direction of the step -/
theorem minAbs_xr (pow : XR → XR → XR) (ε d q m : ℝ) (hq : 0 < q) (hm : 0 < m * d) :
    ∃ q' : ℝ, 0 < q' ∧ q' ≤ q ∧ (ops pow (fin ε)).time.minAbs (fin m) (fin (d * q)) = fin (d * q') ∧ |d * q'| ≤ |m| := by
  unfold TimeArith.minAbs TimeArith.stdMin TimeArith.stdMax
  show ∃ q' : ℝ, 0 < q' ∧ q' ≤ q ∧ (if decide (((0 : ℤ) : ℝ) < m) = true then (if decide (d * q < m) = true then fin (d * q) else fin m)
    else (if decide (m < d * q) = true then fin (d * q) else fin m)) = fin (d * q') ∧ |d * q'| ≤ |m|
  have hd : d ≠ 0 := by rintro rfl; simp at hm
  rcases lt_or_ge 0 m with h | h
  · have hd0 : 0 < d := by
      rcases pos_and_pos_or_neg_and_neg_of_mul_pos hm with h' | h'
      · exact h'.2
      · linarith [h'.1]
    rw [if_pos (decide_eq_true (by exact_mod_cast h))]
    by_cases h2 : d * q < m
    · rw [if_pos (decide_eq_true h2)]
      exact ⟨q, hq, le_rfl, rfl, by rw [abs_of_pos (by positivity), abs_of_pos h]; exact h2.le⟩
    · rw [if_neg (by simpa using h2)]
      have e : d * (m / d) = m := by field_simp
      refine ⟨m / d, by positivity, ?_, by rw [e], by rw [e]⟩
      rw [div_le_iff₀ hd0]
      linarith
  · have hd0 : d < 0 ∧ m < 0 := by
      rcases pos_and_pos_or_neg_and_neg_of_mul_pos hm with h' | h'
      · linarith [h'.1]
      · exact ⟨h'.2, h'.1⟩
    rw [if_neg (by simpa using h)]
    by_cases h2 : m < d * q
    · rw [if_pos (decide_eq_true h2)]
      have : d * q < 0 := mul_neg_of_neg_of_pos hd0.1 hq
      exact ⟨q, hq, le_rfl, rfl, by rw [abs_of_neg this, abs_of_neg hd0.2]; linarith⟩
    · rw [if_neg (by simpa using h2)]
      have e : d * (m / d) = m := by field_simp
      refine ⟨m / d, div_pos_of_neg_of_neg hd0.2 hd0.1, ?_, by rw [e], by rw [e]⟩
      rw [div_le_iff_of_neg hd0.1]
      linarith

end Verif
