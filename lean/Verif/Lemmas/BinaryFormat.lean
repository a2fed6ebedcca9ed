import Verif.Props.RoundingWitness
import Verif.Spec.FloatTime

/-! # Binary floating point numbers are a floating point format -/

namespace Verif

private theorem two_ne : (2 : ℝ) ≠ 0 := by norm_num

private theorem round_le_round {a b : ℝ} (h : a ≤ b) : round a ≤ round b := by
  rw [round_eq, round_eq]
  exact Int.floor_mono (by linarith)

/-- multiples of a power of two with at most `m` digits are numbers of the format -/
theorem binaryFormat_exact {m : ℕ} (hm : 1 ≤ m) {j e : ℤ} (hj : |j| ≤ 2 ^ m) : (binaryFormat m).rnd (j * 2 ^ e) = j * 2 ^ e := by
  rcases eq_or_ne j 0 with rfl | hj0
  · simp [binaryFormat]
  set y : ℝ := j * 2 ^ e with hy
  have hy0 : 0 < |y| := abs_pos.2 (mul_ne_zero (by exact_mod_cast hj0) (by positivity))
  set E := Int.log 2 |y| with hE
  have hEy : ((2 : ℕ) : ℝ) ^ E ≤ |y| := Int.zpow_log_le_self (by norm_num) hy0
  have hyabs : |y| = |(j : ℝ)| * 2 ^ e := by rw [hy, abs_mul, abs_of_pos (by positivity : (0 : ℝ) < 2 ^ e)]
  have hyz : y * 2 ^ ((m : ℤ) - 1 - E) = j * 2 ^ (e + m - 1 - E) := by
    rw [hy, mul_assoc, ← zpow_add₀ two_ne]
    congr 2
    ring
  have key : ∃ i : ℤ, y * 2 ^ ((m : ℤ) - 1 - E) = i := by
    rw [hyz]
    by_cases hlt : E ≤ e + m - 1
    · refine ⟨j * 2 ^ (e + m - 1 - E).toNat, ?_⟩
      push_cast
      rw [← zpow_natCast, Int.toNat_of_nonneg (by omega)]
    · -- the number with `m + 1` digits
      have h3 : ((2 : ℕ) : ℝ) ^ (e + m) ≤ ((2 : ℕ) : ℝ) ^ E := zpow_le_zpow_right₀ (by norm_num) (by omega)
      have h4 : |(j : ℝ)| ≤ 2 ^ m := by exact_mod_cast hj
      have h5 : |y| ≤ 2 ^ (e + m) := by
        rw [hyabs, zpow_add₀ two_ne, mul_comm, zpow_natCast]
        exact mul_le_mul_of_nonneg_left h4 (by positivity)
      have h6 : |y| = 2 ^ (e + m) := le_antisymm h5 (by simpa using h3.trans hEy)
      have h7 : E = e + m := by
        rw [hE, h6]
        simpa using Int.log_zpow (R := ℝ) (b := 2) (by norm_num) (e + m)
      have h8 : |(j : ℝ)| = 2 ^ m := by
        rw [hyabs, zpow_add₀ two_ne, mul_comm, zpow_natCast] at h6
        exact mul_left_cancel₀ (by positivity) h6
      have h9 : |j| = 2 ^ m := by exact_mod_cast h8
      obtain ⟨i, hi⟩ : (2 : ℤ) ∣ j := by
        rw [← dvd_abs, h9]
        exact dvd_pow_self _ (by omega)
      refine ⟨i, ?_⟩
      rw [h7, hi, show e + (m : ℤ) - 1 - (e + m) = -1 by ring]
      push_cast
      rw [zpow_neg_one]
      ring
  obtain ⟨i, hi⟩ := key
  change (round (y * 2 ^ ((m : ℤ) - 1 - E)) : ℝ) * 2 ^ (E - (m - 1)) = y
  rw [hi, round_intCast, ← hi, mul_assoc, ← zpow_add₀ two_ne]
  simp

theorem binaryFormat_form (m : ℕ) (y : ℝ) : ∃ j e : ℤ, |j| ≤ 2 ^ m ∧ (binaryFormat m).rnd y = j * 2 ^ e := by
  refine ⟨round (y * 2 ^ ((m : ℤ) - 1 - Int.log 2 |y|)), Int.log 2 |y| - (m - 1), ?_, rfl⟩
  have h1 : |y * 2 ^ ((m : ℤ) - 1 - Int.log 2 |y|)| ≤ ((2 ^ m : ℤ) : ℝ) := by
    have h2 := (Int.lt_zpow_succ_log_self (b := 2) (by norm_num) |y|).le
    rw [abs_mul, abs_of_pos (by positivity : (0 : ℝ) < 2 ^ ((m : ℤ) - 1 - Int.log 2 |y|))]
    calc |y| * 2 ^ ((m : ℤ) - 1 - Int.log 2 |y|) ≤ 2 ^ (Int.log 2 |y| + 1) * 2 ^ ((m : ℤ) - 1 - Int.log 2 |y|) :=
          mul_le_mul_of_nonneg_right (by simpa using h2) (by positivity)
      _ = ((2 ^ m : ℤ) : ℝ) := by
        rw [← zpow_add₀ two_ne]
        push_cast
        rw [← zpow_natCast]
        congr 1
        ring
  rw [abs_le] at h1 ⊢
  constructor
  · have := round_le_round h1.1
    rwa [← Int.cast_neg, round_intCast] at this
  · have := round_le_round h1.2
    rwa [round_intCast] at this

/-- rounding to multiples of `2^(E-m+1)` -/
noncomputable def roundAt (m : ℕ) (E : ℤ) (y : ℝ) : ℝ := round (y * 2 ^ ((m : ℤ) - 1 - E)) * 2 ^ (E - (m - 1))

theorem roundAt_mono (m : ℕ) (E : ℤ) : Monotone (roundAt m E) := by
  intro a b h
  unfold roundAt
  refine mul_le_mul_of_nonneg_right ?_ (by positivity)
  exact_mod_cast round_le_round (mul_le_mul_of_nonneg_right h (by positivity))

theorem roundAt_int {m : ℕ} (hm : 1 ≤ m) (E k : ℤ) : roundAt m E (k * 2 ^ E) = k * 2 ^ E := by
  have h1 : (k : ℝ) * 2 ^ E * 2 ^ ((m : ℤ) - 1 - E) = ((k * 2 ^ (m - 1) : ℤ) : ℝ) := by
    rw [mul_assoc, ← zpow_add₀ two_ne]
    push_cast
    rw [← zpow_natCast]
    congr 2
    push_cast [hm]
    ring
  unfold roundAt
  rw [h1, round_intCast, ← h1, mul_assoc, ← zpow_add₀ two_ne]
  simp

theorem binaryFormat_mono {m : ℕ} (hm : 1 ≤ m) : Monotone (binaryFormat m).rnd := by
  intro a b hab
  have e : ∀ y, (binaryFormat m).rnd y = roundAt m (Int.log 2 |y|) y := fun _ => rfl
  rw [e, e]
  have z : ∀ E, roundAt m E 0 = 0 := fun E => by simp [roundAt]
  have p1 : ∀ E : ℤ, roundAt m E (2 ^ E) = 2 ^ E := fun E => by simpa using roundAt_int hm E 1
  have p2 : ∀ E : ℤ, roundAt m E (2 ^ (E + 1)) = 2 ^ (E + 1) := fun E => by
    have := roundAt_int hm E 2
    rw [zpow_add_one₀ two_ne, mul_comm]
    simpa using this
  have n1 : ∀ E : ℤ, roundAt m E (-2 ^ E) = -2 ^ E := fun E => by simpa using roundAt_int hm E (-1)
  have n2 : ∀ E : ℤ, roundAt m E (-2 ^ (E + 1)) = -2 ^ (E + 1) := fun E => by
    have := roundAt_int hm E (-2)
    rw [zpow_add_one₀ two_ne, mul_comm]
    simpa using this
  rcases le_or_gt a 0 with ha | ha
  · rcases le_or_gt 0 b with hb | hb
    · calc _ ≤ roundAt m (Int.log 2 |a|) 0 := roundAt_mono _ _ ha
        _ = roundAt m (Int.log 2 |b|) 0 := by rw [z, z]
        _ ≤ _ := roundAt_mono _ _ hb
    · have hlog : Int.log 2 |b| ≤ Int.log 2 |a| := Int.log_mono_right (abs_pos.2 hb.ne) (by rw [abs_of_neg hb, abs_of_nonpos ha]; linarith)
      rcases hlog.eq_or_lt with h | h
      · rw [h]; exact roundAt_mono _ _ hab
      · have h1 : a ≤ -2 ^ Int.log 2 |a| := by
          have := Int.zpow_log_le_self (b := 2) (by norm_num) (abs_pos.2 (show a ≠ 0 by linarith))
          rw [abs_of_nonpos ha] at this ⊢
          have h2 : (2 : ℝ) ^ Int.log 2 (-a) ≤ -a := by simpa using this
          linarith
        have h2 : -2 ^ (Int.log 2 |b| + 1) ≤ b := by
          have := (Int.lt_zpow_succ_log_self (b := 2) (by norm_num) |b|).le
          rw [abs_of_neg hb] at this ⊢
          have h2 : -b ≤ (2 : ℝ) ^ (Int.log 2 (-b) + 1) := by simpa using this
          linarith
        calc _ ≤ roundAt m (Int.log 2 |a|) (-2 ^ Int.log 2 |a|) := roundAt_mono _ _ h1
          _ = -2 ^ Int.log 2 |a| := n1 _
          _ ≤ -2 ^ (Int.log 2 |b| + 1) := neg_le_neg (zpow_le_zpow_right₀ (by norm_num) (by omega))
          _ = roundAt m (Int.log 2 |b|) (-2 ^ (Int.log 2 |b| + 1)) := (n2 _).symm
          _ ≤ _ := roundAt_mono _ _ h2
  · have hb : 0 < b := ha.trans_le hab
    have hlog : Int.log 2 |a| ≤ Int.log 2 |b| := Int.log_mono_right (abs_pos.2 ha.ne') (by rw [abs_of_pos hb, abs_of_pos ha]; exact hab)
    rcases hlog.eq_or_lt with h | h
    · rw [h]; exact roundAt_mono _ _ hab
    · have h1 : (2 : ℝ) ^ Int.log 2 |b| ≤ b := by
        have := Int.zpow_log_le_self (b := 2) (by norm_num) (abs_pos.2 hb.ne')
        rw [abs_of_pos hb] at this ⊢
        simpa using this
      have h2 : a ≤ 2 ^ (Int.log 2 |a| + 1) := by
        have := (Int.lt_zpow_succ_log_self (b := 2) (by norm_num) |a|).le
        rw [abs_of_pos ha] at this ⊢
        simpa using this
      calc _ ≤ roundAt m (Int.log 2 |a|) (2 ^ (Int.log 2 |a| + 1)) := roundAt_mono _ _ h2
        _ = 2 ^ (Int.log 2 |a| + 1) := p2 _
        _ ≤ 2 ^ Int.log 2 |b| := zpow_le_zpow_right₀ (by norm_num) (by omega)
        _ = roundAt m (Int.log 2 |b|) (2 ^ Int.log 2 |b|) := (p1 _).symm
        _ ≤ _ := roundAt_mono _ _ h1

/-- Binary floating point numbers with at least four digits are a floating point format (`m = 53` for `double`, `m = 24` for `float`). -/
theorem binaryFormat_floating {m : ℕ} (hm : 4 ≤ m) : (binaryFormat m).Floating where
  nonneg := by simp [binaryFormat]
  small := by
    change (2 : ℝ) ^ (-(m : ℤ)) ≤ 1 / 16
    rw [show (1 / 16 : ℝ) = 2 ^ (-4 : ℤ) by norm_num]
    exact zpow_le_zpow_right₀ (by norm_num) (by omega)
  relative := binaryFormat_rnd m
  mono := binaryFormat_mono (by omega)
  idem y := by
    obtain ⟨j, e, h1, h2⟩ := binaryFormat_form m y
    rw [h2, binaryFormat_exact (by omega) h1]
  neg y hy := by
    obtain ⟨j, e, h1, h2⟩ := binaryFormat_form m y
    rw [hy] at h2
    have : -y = ((-j : ℤ) : ℝ) * 2 ^ e := by rw [h2]; push_cast; ring
    rw [this, binaryFormat_exact (by omega) (by rwa [abs_neg])]
  sterbenz a b ha hb h1 h2 := by
    have key : ∀ (j k : ℤ) (e f : ℤ), |j| ≤ 2 ^ m → e ≤ f → |(k : ℝ) * 2 ^ f - j * 2 ^ e| ≤ |(j : ℝ) * 2 ^ e| →
        (binaryFormat m).rnd ((k : ℝ) * 2 ^ f - j * 2 ^ e) = k * 2 ^ f - j * 2 ^ e ∧
        (binaryFormat m).rnd (j * 2 ^ e - (k : ℝ) * 2 ^ f) = j * 2 ^ e - k * 2 ^ f := by
      intro j k e f hj hef h
      set i : ℤ := k * 2 ^ (f - e).toNat - j with hi
      have h3 : (k : ℝ) * 2 ^ f - j * 2 ^ e = i * 2 ^ e := by
        rw [hi]
        push_cast
        rw [sub_mul, mul_assoc, ← zpow_natCast, ← zpow_add₀ two_ne, Int.toNat_of_nonneg (by omega), sub_add_cancel]
      have h4 : |i| ≤ 2 ^ m := by
        rw [h3, abs_mul, abs_mul] at h
        have h5 : |(i : ℝ)| ≤ |(j : ℝ)| := le_of_mul_le_mul_right h (by positivity)
        have h6 : |i| ≤ |j| := by exact_mod_cast h5
        omega
      refine ⟨by rw [h3, binaryFormat_exact (by omega) h4], ?_⟩
      have h5 : (j : ℝ) * 2 ^ e - k * 2 ^ f = ((-i : ℤ) : ℝ) * 2 ^ e := by
        push_cast
        linear_combination -h3
      rw [h5, binaryFormat_exact (by omega) (by rwa [abs_neg])]
    obtain ⟨j, e, j1, j2⟩ := binaryFormat_form m a
    obtain ⟨k, f, k1, k2⟩ := binaryFormat_form m b
    rw [ha] at j2
    rw [hb] at k2
    rw [j2, k2] at h1 h2 ⊢
    rcases le_total e f with h | h
    · exact (key j k e f j1 h h1).1
    · refine (key k j f e k1 h ?_).2
      rwa [abs_sub_comm]

end Verif
