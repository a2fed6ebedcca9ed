import Verif.Spec.FloatTime
import Mathlib.Tactic.Linarith
import Mathlib.Tactic.Positivity
import Mathlib.Tactic.FieldSimp
import Mathlib.Tactic.Ring
import Mathlib.Data.Real.Archimedean
import Mathlib.Algebra.Order.Floor.Semifield

/-! # Loops over floating point times -/

namespace Verif
variable {ρ : Rounding}

theorem Fl.val_add (a b : Fl ρ) : (a + b).val = ρ.rnd (a.val + b.val) := rfl
theorem Fl.val_sub (a b : Fl ρ) : (a - b).val = ρ.rnd (a.val - b.val) := rfl

theorem Fl.dir_cases (dt : Fl ρ) : dt.dir = 1 ∨ dt.dir = -1 := by
  unfold Fl.dir
  split <;> simp

namespace Rounding.Floating
variable (hρ : ρ.Floating)
include hρ

theorem mono_dir {s a b : ℝ} (hs : s = 1 ∨ s = -1) (h : s * a ≤ s * b) : s * ρ.rnd a ≤ s * ρ.rnd b := by
  rcases hs with rfl | rfl
  · simpa using hρ.mono (by simpa using h)
  · simpa using hρ.mono (by simpa using h)

theorem rnd_zero : ρ.rnd 0 = 0 := by
  have := hρ.relative 0
  simpa using this

theorem rnd_pos {y : ℝ} (h : 0 < ρ.rnd y) : 0 < y := by
  by_contra hy
  have := hρ.mono (not_lt.1 hy)
  rw [hρ.rnd_zero] at this
  linarith

theorem lower {y : ℝ} (hy : 0 ≤ y) : 15 / 16 * y ≤ ρ.rnd y := by
  have h1 := hρ.relative y
  rw [abs_of_nonneg hy, abs_le] at h1
  nlinarith [hρ.small, h1.1]

theorem upper {y : ℝ} (hy : 0 ≤ y) : ρ.rnd y ≤ 17 / 16 * y := by
  have h1 := hρ.relative y
  rw [abs_of_nonneg hy, abs_le] at h1
  nlinarith [hρ.small, h1.2]

theorem abs_le_of_rnd (y : ℝ) : |y| ≤ 16 / 15 * |ρ.rnd y| := by
  have h1 := hρ.relative y
  have h2 : |y| ≤ |ρ.rnd y| + |ρ.rnd y - y| := by
    have := abs_sub_abs_le_abs_sub y (ρ.rnd y)
    rw [abs_sub_comm] at this
    linarith
  nlinarith [hρ.small, abs_nonneg y]

theorem isNumber_rnd (y : ℝ) : (Fl.of (ρ := ρ) (ρ.rnd y)).IsNumber := hρ.idem y

theorem add_isNumber (a b : Fl ρ) : (a + b).IsNumber := hρ.idem _
theorem sub_isNumber (a b : Fl ρ) : (a - b).IsNumber := hρ.idem _

end Rounding.Floating

/-- the comparisons, for step sizes in the direction `s` -/
theorem less_dir {s : ℝ} (hs : s = 1 ∨ s = -1) {eps t1 t2 dt : Fl ρ} (hdt : 0 < s * dt.val) :
    (TimeArith.rounded ρ eps).lessWithSign t1 t2 dt = true ↔ eps.val < ρ.rnd (s * (t2.val - t1.val)) := by
  rcases hs with rfl | rfl
  · have : 0 < dt.val := by simpa using hdt
    simp [TimeArith.lessWithSign, TimeArith.rounded, this, Fl.val_sub, show (Fl.of (ρ := ρ) 0).val = 0 from rfl]
    exact decide_eq_true_iff
  · have : ¬ 0 < dt.val := by simp at hdt; linarith
    simp [TimeArith.lessWithSign, TimeArith.rounded, this, Fl.val_sub, show (Fl.of (ρ := ρ) 0).val = 0 from rfl]
    exact decide_eq_true_iff

theorem lessEq_dir {s : ℝ} (hs : s = 1 ∨ s = -1) {eps t1 t2 dt : Fl ρ} (hdt : 0 < s * dt.val) :
    (TimeArith.rounded ρ eps).lessEqWithSign t1 t2 dt = true ↔ ρ.rnd (s * (t1.val - t2.val)) ≤ eps.val := by
  rcases hs with rfl | rfl
  · have : 0 < dt.val := by simpa using hdt
    simp [TimeArith.lessEqWithSign, TimeArith.rounded, this, Fl.val_sub, show (Fl.of (ρ := ρ) 0).val = 0 from rfl]
    exact decide_eq_true_iff
  · have : ¬ 0 < dt.val := by simp at hdt; linarith
    simp [TimeArith.lessEqWithSign, TimeArith.rounded, this, Fl.val_sub, show (Fl.of (ρ := ρ) 0).val = 0 from rfl]
    exact decide_eq_true_iff

theorem dir_pos {dt : Fl ρ} (h : dt.val ≠ 0) : 0 < dt.dir * dt.val := by
  unfold Fl.dir
  rcases lt_or_gt_of_ne h with h | h
  · rw [if_neg (by linarith)]; linarith
  · rw [if_pos h]; linarith

theorem dir_sq {s : ℝ} (hs : s = 1 ∨ s = -1) : s * s = 1 := by rcases hs with rfl | rfl <;> norm_num

theorem dir_abs {s : ℝ} (hs : s = 1 ∨ s = -1) (y : ℝ) : |s * y| = |y| := by rcases hs with rfl | rfl <;> simp

/-- a natural number that decreases when a real number decreases by at least `κ` -/
noncomputable def countdown (κ d : ℝ) : ℕ := if d ≤ 0 then 0 else ⌊d / κ⌋₊ + 1

theorem countdown_lt {κ d d' : ℝ} (hκ : 0 < κ) (hd : 0 < d) (h : d' ≤ 0 ∨ d' ≤ d - κ) : countdown κ d' < countdown κ d := by
  unfold countdown
  rw [if_neg (not_le.2 hd)]
  split
  · omega
  · rename_i h0
    have h1 : d' ≤ d - κ := by
      rcases h with h | h
      · exact absurd h h0
      · exact h
    have h2 : d' / κ ≤ d / κ - 1 := by
      rw [le_sub_iff_add_le, div_add_one hκ.ne', div_le_div_iff_of_pos_right hκ]
      linarith
    have h3 := Nat.floor_le_floor h2
    have h4 : 0 < d' / κ := div_pos (not_le.1 h0) hκ
    have h5 : ⌊d / κ - 1⌋₊ = ⌊d / κ⌋₊ - 1 := Nat.floor_sub_one _
    have h6 : 1 ≤ ⌊d / κ⌋₊ := (Nat.one_le_floor_iff _).2 (by linarith)
    omega


variable {Q W S : Type}

/-- The loop over failed steps. -/
theorem retry_ends {st : ControlledStepper Q W S (Fl ρ)} {s δ : ℝ} (hδ : 0 < δ) (hst : StepsAtLeast st s δ) (a : AdaptState Q S (Fl ρ))
    (hd : 0 < s * a.dt.val) (w : W) :
    (retryLoop st a w).Sat (fun r _ => ∃ h : Fl ρ, r.t = a.t + h ∧ 0 < s * h.val ∧ s * h.val ≤ s * a.dt.val ∧ (h = a.dt ∨ δ ≤ s * h.val) ∧
      min (s * h.val) δ ≤ s * r.dt.val) (fun _ _ => True) False := by
  set J : AdaptState Q S (Fl ρ) → Prop := fun b =>
    if b.success then ∃ h : Fl ρ, b.t = a.t + h ∧ 0 < s * h.val ∧ s * h.val ≤ s * a.dt.val ∧ (h = a.dt ∨ δ ≤ s * h.val) ∧
      min (s * h.val) δ ≤ s * b.dt.val
    else b.t = a.t ∧ s * b.dt.val ≤ s * a.dt.val ∧ δ ≤ s * b.dt.val with hJ
  have body : ∀ (b : AdaptState Q S (Fl ρ)) w, b.t = a.t → 0 < s * b.dt.val → s * b.dt.val ≤ s * a.dt.val → (b.dt = a.dt ∨ δ ≤ s * b.dt.val) →
      (retryBody st b w).Sat (fun c _ => J c ∧ 501 - c.fails < 501 - b.fails) (fun _ _ => True) False := by
    intro b w h1 h2 h3 h4
    unfold retryBody
    refine Res.Sat.bind ((hst b.q b.x b.t b.dt w h2).mono (fun r w' hr => ?_) (fun _ _ _ => trivial) id)
    refine Res.Sat.bind ?_
    unfold failedStepChecker
    by_cases hf : b.fails ≥ defaultMaxSteps
    · rw [if_pos hf]
      trivial
    · rw [if_neg hf]
      have hf' : b.fails < 500 := by unfold defaultMaxSteps at hf; omega
      refine ⟨?_, by dsimp only; omega⟩
      simp only [hJ]
      split
      · rename_i hs
        rw [if_pos hs] at hr
        exact ⟨b.dt, by rw [hr.1, h1], h2, h3, h4, hr.2⟩
      · rename_i hs
        rw [if_neg hs] at hr
        exact ⟨by rw [hr.1, h1], hr.2.1.trans h3, hr.2.2⟩
  unfold retryLoop
  refine Res.Sat.bind ((body a w rfl hd le_rfl (.inl rfl)).mono (fun b w' hb => ?_) (fun _ _ _ => trivial) id)
  refine (whileM_sat_total (E := fun _ _ => True) (D := False) (fun c _ => J c) (fun c _ => 501 - c.fails) (fun c w hc hcond => ?_) hb.1).mono (fun c w' hc => ?_) (fun _ _ _ => trivial) id
  · have hs : ¬ c.success = true := by simpa using hcond
    simp only [hJ, if_neg hs] at hc
    exact body c w hc.1 (hδ.trans_le hc.2.2) hc.2.1 (.inr hc.2.2)
  · have hs : c.success = true := by simpa using hc.2
    have := hc.1
    simp only [hJ, if_pos hs] at this
    exact this

/-- One step towards the end time, not necessarily all the way. -/
theorem step_towards (hρ : ρ.Floating) {s : ℝ} (hs : s = 1 ∨ s = -1) {t0 t1 t h : Fl ρ} {δ : ℝ} (ht : t.IsNumber) (hδ : 0 < δ)
    (hδu : 4 * ρ.u * max |t0.val| |t1.val| ≤ δ) (h0 : s * t0.val ≤ s * t.val) (hh : δ ≤ s * h.val) :
    s * t.val ≤ s * (t + h).val ∧ (s * (t1.val - (t + h).val) ≤ 0 ∨ s * (t1.val - (t + h).val) ≤ s * (t1.val - t.val) - δ / 2) := by
  have m1 : s * t.val ≤ s * (t + h).val := by
    rw [Fl.val_add]
    have := hρ.mono_dir hs (a := t.val) (b := t.val + h.val) (by rw [mul_add]; linarith)
    rwa [ht] at this
  refine ⟨m1, ?_⟩
  rcases le_or_gt (s * (t1.val - (t + h).val)) 0 with h1 | h1
  · exact .inl h1
  refine .inr ?_
  set R := max |t0.val| |t1.val| with hR
  have hR0 : |t0.val| ≤ R := le_max_left _ _
  have hR1 : |t1.val| ≤ R := le_max_right _ _
  have b : |(t + h).val| ≤ R := by
    rw [← dir_abs hs, abs_le]
    rw [← dir_abs hs, abs_le] at hR0 hR1
    rw [mul_sub] at h1
    constructor <;> linarith [hR0.1, hR1.2]
  have b2 := hρ.abs_le_of_rnd (t.val + h.val)
  rw [← Fl.val_add] at b2
  have b3 := hρ.relative (t.val + h.val)
  rw [← Fl.val_add, ← dir_abs hs, abs_le, mul_sub, mul_add] at b3
  have b4 : ρ.u * |t.val + h.val| ≤ δ / 2 := by
    calc ρ.u * |t.val + h.val| ≤ ρ.u * (16 / 15 * R) := mul_le_mul_of_nonneg_left (by linarith) hρ.nonneg
      _ ≤ δ / 2 := by
        have : 0 ≤ ρ.u * R := mul_nonneg hρ.nonneg ((abs_nonneg _).trans hR0)
        linarith
  rw [mul_sub, mul_sub]
  linarith [b3.1]

/-- The step to the end time: exact, or the distance is at least divided by four. -/
theorem step_to_end (hρ : ρ.Floating) {s : ℝ} (hs : s = 1 ∨ s = -1) {t1 t : Fl ρ} (ht : t.IsNumber) (ht1 : t1.IsNumber)
    (hd : 0 < s * (t1.val - t.val)) :
    let d := s * (t1.val - t.val)
    let t' := t + (t1 - t)
    15 / 16 * d ≤ s * (t1 - t).val ∧ |t'.val - t1.val| ≤ ρ.u * (17 / 16 * d + |t1.val|) ∧
      (t'.val = t1.val ∨ t1.val ≠ 0 ∧ |t'.val - t1.val| ≤ d / 4 ∧ |t1.val| / 2 ≤ d) := by
  intro d t'
  have hd' : d = |t1.val - t.val| := by rw [← dir_abs hs, abs_of_pos hd]
  have r1 := hρ.relative (t1.val - t.val)
  rw [← Fl.val_sub, ← hd'] at r1
  have e1 : 15 / 16 * d ≤ s * (t1 - t).val := by
    have := r1
    rw [← dir_abs hs, abs_le, mul_sub] at this
    have h2 := hρ.small
    have h3 : ρ.u * d ≤ 1 / 16 * d := mul_le_mul_of_nonneg_right h2 hd.le
    have : s * (t1.val - t.val) = d := rfl
    linarith [this, ‹_ ∧ _›.1]
  have e2 : |t'.val - t1.val| ≤ ρ.u * (17 / 16 * d + |t1.val|) := by
    have r2 := hρ.relative (t.val + (t1 - t).val)
    rw [← Fl.val_add] at r2
    have h1 : |t.val + (t1 - t).val - t1.val| ≤ ρ.u * d := by
      have : t.val + (t1 - t).val - t1.val = (t1 - t).val - (t1.val - t.val) := by ring
      rw [this]; exact r1
    have h2 : |t.val + (t1 - t).val| ≤ |t1.val| + ρ.u * d := by
      have := abs_add_le t1.val (t.val + (t1 - t).val - t1.val)
      rw [add_sub_cancel] at this
      linarith
    have h3 : |t'.val - t1.val| ≤ |t'.val - (t.val + (t1 - t).val)| + |t.val + (t1 - t).val - t1.val| := abs_sub_le _ _ _
    have h4 : ρ.u * |t.val + (t1 - t).val| ≤ ρ.u * (|t1.val| + ρ.u * d) := mul_le_mul_of_nonneg_left h2 hρ.nonneg
    have h5 : ρ.u * (ρ.u * d) ≤ ρ.u * (1 / 16 * d) := mul_le_mul_of_nonneg_left (mul_le_mul_of_nonneg_right hρ.small hd.le) hρ.nonneg
    calc |t'.val - t1.val| ≤ ρ.u * (|t1.val| + ρ.u * d) + ρ.u * d := by linarith
      _ ≤ _ := by rw [mul_add] at *; linarith
  refine ⟨e1, e2, ?_⟩
  by_cases hz : t1.val = 0
  · left
    have : (t1 - t).val = -t.val := by rw [Fl.val_sub, hz, zero_sub, hρ.neg _ ht]
    change (t + (t1 - t)).val = _
    rw [Fl.val_add, this, add_neg_cancel, hρ.rnd_zero, hz]
  by_cases hn : d < |t1.val| / 2
  · left
    have h1 : |t1.val| ≤ |t.val| + d := by
      have := abs_sub_abs_le_abs_sub t1.val t.val
      rw [← hd'] at this
      linarith
    have : (t1 - t).val = t1.val - t.val := by
      rw [Fl.val_sub]
      refine hρ.sterbenz _ _ ht ht1 ?_ ?_ <;> rw [← hd'] <;> linarith [abs_nonneg t1.val]
    change (t + (t1 - t)).val = _
    rw [Fl.val_add, this, add_sub_cancel, ht1]
  · right
    rw [not_lt] at hn
    refine ⟨hz, e2.trans ?_, hn⟩
    calc ρ.u * (17 / 16 * d + |t1.val|) ≤ 1 / 16 * (17 / 16 * d + |t1.val|) := mul_le_mul_of_nonneg_right hρ.small (by positivity)
      _ ≤ d / 4 := by linarith

end Verif
