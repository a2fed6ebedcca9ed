import Verif.Lemmas.Controlled
import Mathlib.Algebra.Order.Field.Rat

/-! # C14: direction-aware comparisons (`util/detail/less_with_sign.hpp`) -/

namespace Verif
variable {K : Type} [Field K] [LinearOrder K] [IsStrictOrderedRing K]

/-- **C14** (trichotomy).  For `eps >= 0`, any `dt`: exactly one of "a before b", "b before a",
"within eps" holds. -/
theorem less_with_sign_trichotomy (eps : K) (heps : 0 ≤ eps) (a b dt : K) :
    let L := (TimeArith.exact K eps).lessWithSign
    (L a b dt = true ∧ L b a dt = false ∧ ¬ |a - b| ≤ eps) ∨
    (L a b dt = false ∧ L b a dt = true ∧ ¬ |a - b| ≤ eps) ∨
    (L a b dt = false ∧ L b a dt = false ∧ |a - b| ≤ eps) := by
  intro L
  have e1 : dirSign dt * (b - a) = -(dirSign dt * (a - b)) := by ring
  have e2 : |a - b| = |dirSign dt * (a - b)| := (abs_dirSign_mul dt _).symm
  have t1 : L a b dt = true ↔ eps < -(dirSign dt * (a - b)) := by rw [← e1]; exact exact_less ..
  have f1 : L a b dt = false ↔ -(dirSign dt * (a - b)) ≤ eps := by
    rw [← e1]; exact exact_less_false ..
  have t2 : L b a dt = true ↔ eps < dirSign dt * (a - b) := exact_less ..
  have f2 : L b a dt = false ↔ dirSign dt * (a - b) ≤ eps := exact_less_false ..
  rw [t1, f1, t2, f2, e2]
  generalize dirSign dt * (a - b) = z
  rw [abs_le]
  rcases lt_or_ge eps z with h | h
  · right; left; exact ⟨by linarith, h, fun h' => by linarith [h'.2]⟩
  · rcases lt_or_ge z (-eps) with h' | h'
    · left; exact ⟨by linarith, h, fun h'' => by linarith [h''.1]⟩
    · right; right; exact ⟨by linarith, h, h', h⟩

/-- **C14** (forward and backward reading).  For `dt > 0` "before" means smaller, for `dt < 0` it means
larger, each by more than `eps`. -/
theorem less_with_sign_iff (eps a b dt : K) :
    ((TimeArith.exact K eps).lessWithSign a b dt = true ↔ Beyond eps dt b a) ∧
    ((TimeArith.exact K eps).lessEqWithSign a b dt = true ↔ ¬ Beyond eps dt a b) := by
  rw [exact_less, exact_lessEq, not_beyond_iff, beyond_iff]
  exact ⟨Iff.rfl, Iff.rfl⟩

/-- **C14** (`<=` is not `>`). -/
theorem less_eq_with_sign_eq_not_less (eps a b dt : K) :
    (TimeArith.exact K eps).lessEqWithSign a b dt =
      !(TimeArith.exact K eps).lessWithSign b a dt := by
  rw [Bool.eq_iff_iff, Bool.not_eq_true', exact_lessEq, exact_less_false]

/-- **C14** (mirror symmetry).  For `dt != 0`, negating everything changes nothing. -/
theorem less_with_sign_neg (eps a b dt : K) (hdt : dt ≠ 0) :
    (TimeArith.exact K eps).lessWithSign (-a) (-b) (-dt) =
      (TimeArith.exact K eps).lessWithSign a b dt ∧
    (TimeArith.exact K eps).lessEqWithSign (-a) (-b) (-dt) =
      (TimeArith.exact K eps).lessEqWithSign a b dt := by
  have hs : dirSign (-dt) = - dirSign dt := by
    unfold dirSign
    rcases lt_or_gt_of_ne hdt with h | h
    · rw [if_pos (by linarith), if_neg (by linarith)]; ring
    · rw [if_neg (by linarith), if_pos h]
  constructor
  · rw [Bool.eq_iff_iff, exact_less, exact_less, hs]
    have : -dirSign dt * (-b - -a) = dirSign dt * (b - a) := by ring
    rw [this]
  · rw [Bool.eq_iff_iff, exact_lessEq, exact_lessEq, hs]
    have : -dirSign dt * (-a - -b) = dirSign dt * (a - b) := by ring
    rw [this]

/-- **C14** (`min_abs`, `max_abs`).  For two step sizes of equal direction `min_abs` returns the one of
smaller magnitude and `max_abs` the one of larger magnitude; both keep the direction. -/
theorem min_abs_max_abs_spec (eps a b : K) (h : SameDir a b) :
    let A := TimeArith.exact K eps
    (A.minAbs a b = a ∨ A.minAbs a b = b) ∧ |A.minAbs a b| = min |a| |b| ∧
      SameDir a (A.minAbs a b) ∧
    (A.maxAbs a b = a ∨ A.maxAbs a b = b) ∧ |A.maxAbs a b| = max |a| |b| ∧
      SameDir a (A.maxAbs a b) := by
  intro A
  simp only [A, TimeArith.minAbs, TimeArith.maxAbs, TimeArith.stdMin, TimeArith.stdMax,
    TimeArith.exact, decide_eq_true_eq]
  rcases h with ⟨ha, hb⟩ | ⟨ha, hb⟩
  · rw [if_pos ha, if_pos ha, abs_of_pos ha, abs_of_pos hb]
    rcases lt_trichotomy a b with h | h | h
    · rw [if_neg (not_lt.mpr h.le), if_pos h, abs_of_pos ha, abs_of_pos hb, min_eq_left h.le,
        max_eq_right h.le]
      exact ⟨.inl rfl, rfl, .inl ⟨ha, ha⟩, .inr rfl, rfl, .inl ⟨ha, hb⟩⟩
    · subst h
      simp only [lt_self_iff_false, if_false, abs_of_pos ha, min_self, max_self]
      exact ⟨.inl trivial, trivial, .inl ⟨ha, ha⟩, .inl trivial, trivial, .inl ⟨ha, ha⟩⟩
    · rw [if_pos h, if_neg (not_lt.mpr h.le), abs_of_pos ha, abs_of_pos hb, min_eq_right h.le,
        max_eq_left h.le]
      exact ⟨.inr rfl, rfl, .inl ⟨ha, hb⟩, .inl rfl, rfl, .inl ⟨ha, ha⟩⟩
  · rw [if_neg (not_lt.mpr ha.le), if_neg (not_lt.mpr ha.le), abs_of_neg ha, abs_of_neg hb]
    rcases lt_trichotomy a b with h | h | h
    · rw [if_pos h, if_neg (not_lt.mpr h.le), abs_of_neg ha, abs_of_neg hb,
        min_eq_right (by linarith), max_eq_left (by linarith)]
      exact ⟨.inr rfl, rfl, .inr ⟨ha, hb⟩, .inl rfl, rfl, .inr ⟨ha, ha⟩⟩
    · subst h
      simp only [lt_self_iff_false, if_false, abs_of_neg ha, min_self, max_self]
      exact ⟨.inl trivial, trivial, .inr ⟨ha, ha⟩, .inl trivial, trivial, .inr ⟨ha, ha⟩⟩
    · rw [if_neg (not_lt.mpr h.le), if_pos h, abs_of_neg ha, abs_of_neg hb,
        min_eq_left (by linarith), max_eq_right (by linarith)]
      exact ⟨.inl rfl, rfl, .inr ⟨ha, ha⟩, .inr rfl, rfl, .inr ⟨ha, hb⟩⟩

/-- Non-vacuity: all three cases of the trichotomy occur (backward direction, `eps = 1/10`). -/
example : (TimeArith.exact ℚ (1/10)).lessWithSign 2 1 (-1) = true ∧
    (TimeArith.exact ℚ (1/10)).lessWithSign 1 2 (-1) = false ∧
    (TimeArith.exact ℚ (1/10)).lessWithSign 1 (21/20) (-1) = false ∧
    (TimeArith.exact ℚ (1/10)).lessWithSign (21/20) 1 (-1) = false := by
  refine ⟨?_, ?_, ?_, ?_⟩ <;> time_eval

/-- Non-vacuity of `min_abs`/`max_abs` with negative arguments. -/
example : (TimeArith.exact ℚ 0).minAbs (-1) (-3) = -1 ∧ (TimeArith.exact ℚ 0).maxAbs (-1) (-3) = -3 := by
  constructor <;> time_eval

end Verif
