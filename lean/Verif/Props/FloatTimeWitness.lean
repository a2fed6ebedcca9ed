import Verif.Props.FloatTime
import Verif.Lemmas.BinaryFormat
import Verif.Spec.DenseRun

/-! # C73: cases, and a call that does not return -/

namespace Verif

/-- `double` -/
noncomputable abbrev double : Rounding := binaryFormat 53

/-- `std::numeric_limits< double >::epsilon()` -/
noncomputable def doubleEps : Fl double := .of (2 ^ (-52 : ℤ))

/-- the number `-1.3` -/
noncomputable def startTime : Fl double := .of (-5854679515581645 / 2 ^ 52)

theorem startTime_isNumber : startTime.IsNumber := by
  have := binaryFormat_exact (m := 53) (by norm_num) (j := -5854679515581645) (e := -52) (by norm_num)
  change (binaryFormat 53).rnd (-5854679515581645 / 2 ^ 52) = -5854679515581645 / 2 ^ 52
  push_cast at this
  convert this using 2 <;> norm_num

/-- it is the `double` next to `-1.3` -/
theorem startTime_nearest : |startTime.val - (-13 / 10)| ≤ 2 ^ (-53 : ℤ) := by
  change |(-5854679515581645 / 2 ^ 52 : ℝ) - (-13 / 10)| ≤ _
  rw [abs_le]
  constructor <;> norm_num

theorem double_rnd {y : ℝ} {E j : ℤ} (h1 : 2 ^ E ≤ y) (h2 : y < 2 ^ (E + 1)) (h3 : |y * 2 ^ (52 - E) - j| < 1 / 2) : double.rnd y = j * 2 ^ (E - 52) := by
  have hy : 0 < y := lt_of_lt_of_le (by positivity) h1
  have hlog : Int.log 2 |y| = E := by
    rw [abs_of_pos hy]
    refine le_antisymm ?_ ?_
    · have := (Int.lt_zpow_iff_log_lt (b := 2) (R := ℝ) (by norm_num) hy (x := E + 1)).1 (by simpa using h2)
      omega
    · exact (Int.zpow_le_iff_le_log (b := 2) (R := ℝ) (by norm_num) hy).1 (by simpa using h1)
  have e : double.rnd y = round (y * 2 ^ ((53 : ℤ) - 1 - E)) * 2 ^ (E - (53 - 1)) := by
    rw [← hlog]; rfl
  rw [e, show (53 : ℤ) - 1 - E = 52 - E by ring, show E - ((53 : ℤ) - 1) = E - 52 by ring]
  congr 2
  rw [round_eq, Int.floor_eq_iff]
  rw [abs_lt] at h3
  constructor <;> linarith

/-- The rounded length of the interval from `-1.3` to `7`, and the end of a step of this length: beyond `7` by four units in the last place. -/
theorem overshoot : (Fl.of 7 - startTime).val = 4672484613396890 * 2 ^ (-49 : ℤ) ∧ (startTime + (Fl.of 7 - startTime)).val = 7 + 2 ^ (-50 : ℤ) := by
  have e1 : (Fl.of 7 - startTime).val = 4672484613396890 * 2 ^ (-49 : ℤ) := by
    change double.rnd (7 - -5854679515581645 / 2 ^ 52) = _
    rw [double_rnd (E := 3) (j := 4672484613396890) (by norm_num) (by norm_num) (by rw [abs_lt]; constructor <;> norm_num)]
    norm_num
  refine ⟨e1, ?_⟩
  rw [Fl.val_add, e1]
  change double.rnd (-5854679515581645 / 2 ^ 52 + _) = _
  rw [double_rnd (E := 2) (j := 7881299347898369) (by norm_num) (by norm_num) (by rw [abs_lt]; constructor <;> norm_num)]
  norm_num

/-- **C73, negation** for dense output steppers: `integrate_adaptive( stepper , system , x , -1.3 , 7.0 , 10.0 , observer )` with numbers of type `double`
never returns, whatever the dense output stepper, the system and the observer are (the only thing that is used is that `initialize` sets the current time
and step size).  The step from `-1.3` that should end at `7` ends at `7 + 4 ulp` after rounding; `integrate_adaptive` does not make it because it would
lead beyond the end time, and tries to shorten it again and again. -/
theorem adaptive_dense_hangs {Q W S : Type} {st : DenseStepper Q W S (Fl double)}
    (hinit : ∀ q x t dt w, ∃ q' w', st.init q x t dt w = .ok q' w' ∧ st.curTime q' = t ∧ st.curDt q' = dt) (obs : Observer W S (Fl double)) (q : Q)
    (x : S) (w : W) : integrateAdaptiveDense (.rounded double doubleEps) st obs q x startTime (.of 7) (.of 10) w = .div := by
  have hρ : double.Floating := binaryFormat_floating (by norm_num)
  have hs : (1 : ℝ) = 1 ∨ (1 : ℝ) = -1 := .inl rfl
  have v0 : startTime.val = -5854679515581645 / 2 ^ 52 := rfl
  have v7 : (Fl.of 7 : Fl double).val = 7 := rfl
  have v10 : (Fl.of 10 : Fl double).val = 10 := rfl
  have veps : doubleEps.val = 2 ^ (-52 : ℤ) := rfl
  obtain ⟨o1, o2⟩ := overshoot
  have d1 : 0 < 1 * (Fl.of 10 : Fl double).val := by rw [v10]; norm_num
  have d2 : 0 < 1 * (Fl.of 7 - startTime : Fl double).val := by rw [o1]; norm_num
  have goOn : ∀ dt : Fl double, 0 < 1 * dt.val → (TimeArith.rounded double doubleEps).lessWithSign startTime (.of 7) dt = true := by
    intro dt hdt
    rw [less_dir hs hdt]
    have := hρ.lower (y := 1 * ((Fl.of 7 : Fl double).val - startTime.val)) (by rw [v7, v0]; norm_num)
    refine lt_of_lt_of_le ?_ this
    rw [v7, v0, veps]
    norm_num
  have no1 : (TimeArith.rounded double doubleEps).lessEqWithSign ((TimeArith.rounded double doubleEps).add startTime (.of 10)) (.of 7) (.of 10) = false := by
    rw [← Bool.not_eq_true, lessEq_dir hs d1, not_le]
    have h1 := hρ.lower (y := startTime.val + (Fl.of 10 : Fl double).val) (by rw [v0, v10]; norm_num)
    have e : (TimeArith.rounded double doubleEps).add startTime (Fl.of 10) = startTime + Fl.of 10 := rfl
    rw [e]
    rw [← Fl.val_add] at h1
    have h2 : 1 ≤ 1 * ((startTime + (Fl.of 10 : Fl double)).val - (Fl.of 7 : Fl double).val) := by
      rw [v0, v10] at h1
      rw [v7]
      norm_num at h1 ⊢
      linarith
    have h3 := hρ.lower (y := 1 * ((startTime + (Fl.of 10 : Fl double)).val - (Fl.of 7 : Fl double).val)) (by linarith)
    refine lt_of_lt_of_le ?_ h3
    rw [veps]
    refine lt_of_lt_of_le ?_ (mul_le_mul_of_nonneg_left h2 (by norm_num))
    norm_num
  have no2 : (TimeArith.rounded double doubleEps).lessEqWithSign ((TimeArith.rounded double doubleEps).add startTime (Fl.of 7 - startTime)) (.of 7)
      (Fl.of 7 - startTime) = false := by
    rw [← Bool.not_eq_true, lessEq_dir hs d2, not_le]
    have e : (TimeArith.rounded double doubleEps).add startTime (Fl.of 7 - startTime) = startTime + (Fl.of 7 - startTime) := rfl
    rw [e, o2, v7, veps, add_sub_cancel_left, one_mul]
    have := binaryFormat_exact (m := 53) (by norm_num) (j := 1) (e := -50) (by norm_num)
    rw [Int.cast_one, one_mul] at this
    rw [this]
    norm_num
  obtain ⟨q0, w0, e0, t0, dt0⟩ := hinit q x startTime (.of 10) w
  unfold integrateAdaptiveDense
  rw [M.bind_ok e0]
  refine M.bind_div (whileM_div (fun (p : Q × ℕ) _ => st.curTime p.1 = startTime ∧ (st.curDt p.1 = .of 10 ∨ st.curDt p.1 = Fl.of 7 - startTime))
    (fun p w hp => ?_) (s := (q0, 0)) (w := w0) ⟨t0, .inl dt0⟩) _
  obtain ⟨h1, h2⟩ := hp
  obtain ⟨q1, w1, e1, t1, dt1⟩ := hinit p.1 (st.curState p.1) (st.curTime p.1) ((TimeArith.rounded double doubleEps).sub (.of 7) (st.curTime p.1)) w
  refine ⟨?_, (q1, p.2), w1, ?_, by rw [t1, h1], .inr (by rw [dt1, h1]; rfl)⟩
  · rw [h1]
    rcases h2 with h2 | h2 <;> rw [h2]
    · exact goOn _ d1
    · exact goOn _ d2
  · rw [M.bind_ok (whileM_stop ?_)]
    · dsimp only
      rw [M.bind_ok e1]
      rfl
    · rw [h1]
      rcases h2 with h2 | h2 <;> rw [h2]
      · exact no1
      · exact no2

/-- In particular with `make_dense_output< runge_kutta_dopri5< state_type > >( … )`. -/
theorem adaptive_dopri5_dense_hangs {W : Type} {V : Type} [StateOps (Fl double) V] (P : CtrlParams (Fl double) V) (sys : Sys (Fl double) V W)
    (q : Heap (Fl double) V W) (x : V) (w : W × Log V (Fl double)) :
    integrateAdaptiveDense (.rounded double doubleEps) (denseObject P sys) recordObserver q x startTime (.of 7) (.of 10) w = .div :=
  adaptive_dense_hangs (fun _ _ _ _ _ => ⟨_, _, rfl, rfl, rfl⟩) _ _ _ _

/-! ## Cases for the theorems -/

section Cases

/-- a controlled stepper that accepts steps up to `1/4` -/
noncomputable def quarterStepper : ControlledStepper Unit Unit Unit (Fl double) where
  tryStep _ _ t dt := if 1 / 4 < dt.val then pure ⟨(), (), t, .of (1 / 4), false⟩ else pure ⟨(), (), t + dt, dt, true⟩

/-- and as a dense output stepper, with the state (time, step size) -/
noncomputable def quarterDense : DenseStepper (Fl double × Fl double) Unit Unit (Fl double) where
  init _ _ t dt := pure (t, dt)
  doStep q := if 1 / 4 < q.2.val then pure (q.1 + .of (1 / 4), .of (1 / 4)) else pure (q.1 + q.2, q.2)
  calcState _ _ := pure ()
  curState _ := ()
  curTime := Prod.fst
  curDt := Prod.snd

theorem double_number (j e : ℤ) (hj : |j| ≤ 2 ^ 53) : (Fl.of (j * 2 ^ e) : Fl double).IsNumber := binaryFormat_exact (by norm_num) hj

theorem one_dir : (Fl.of 1 : Fl double).dir = 1 := if_pos one_pos

theorem quarterStepper_steps : StepsAtLeast quarterStepper 1 (1 / 4) := by
  intro q x t dt w hdt
  unfold quarterStepper
  dsimp only
  split
  · refine ⟨rfl, ?_, ?_⟩
    · change 1 * (1 / 4 : ℝ) ≤ _
      linarith
    · change (1 / 4 : ℝ) ≤ 1 * (1 / 4)
      norm_num
  · exact ⟨rfl, min_le_left _ _⟩

theorem quarterDense_steps : DenseStepsAtLeast quarterDense 1 (1 / 4) where
  init _ _ _ _ _ := ⟨rfl, rfl⟩
  step q w hdt := by
    unfold quarterDense
    dsimp only
    split
    · rename_i h
      refine ⟨⟨.of (1 / 4), rfl, ?_, ?_⟩, ?_⟩
      · change 1 * (1 / 4 : ℝ) ≤ 1 * q.2.val
        linarith
      · refine le_trans (min_le_right _ _) ?_
        change (1 / 4 : ℝ) ≤ 1 * (1 / 4)
        norm_num
      · refine le_trans (min_le_right _ _) ?_
        change (1 / 4 : ℝ) ≤ 1 * (1 / 4)
        norm_num
    · exact ⟨⟨q.2, rfl, le_refl _, min_le_left _ _⟩, min_le_left _ _⟩

/-- `integrate_adaptive` from `-1.3` to `1000` with the controlled stepper and first step size `1` -/
example : (integrateAdaptiveControlled (.rounded double doubleEps) quarterStepper nullObserver () () startTime (.of 1000) (.of 1) ()).Sat
    (fun r _ => 0 ≤ (Fl.of 1 : Fl double).dir * (1000 - startTime.val) →
      |r.t.val - 1000| ≤ 2 * doubleEps.val + 2 * double.u * (|(1000 : ℝ)| + |1000 - startTime.val|)) (fun _ _ => True) False := by
  refine adaptive_controlled_ends (δ := 1 / 4) (binaryFormat_floating (by norm_num)) (fun _ _ _ => by exact True.intro) ?_ startTime_isNumber ?_ ?_ (by norm_num) ?_ ?_
    (by rw [one_dir]; exact quarterStepper_steps) () () ()
  · change (0 : ℝ) ≤ 2 ^ (-52 : ℤ)
    positivity
  · have := double_number 1000 0 (by norm_num)
    simpa using this
  · exact one_ne_zero
  · change (1 / 4 : ℝ) ≤ |1|
    norm_num
  · change 4 * (2 : ℝ) ^ (-(53 : ℤ)) * max |(-5854679515581645 / 2 ^ 52 : ℝ)| |1000| ≤ 1 / 4
    have : max |(-5854679515581645 / 2 ^ 52 : ℝ)| |1000| ≤ 1000 := max_le (by rw [abs_le]; constructor <;> norm_num) (by norm_num)
    refine le_trans (mul_le_mul_of_nonneg_left this (by positivity)) ?_
    norm_num

/-- `integrate_adaptive` from `-1/8` to `1/2` with the dense output stepper -/
example : (integrateAdaptiveDense (.rounded double doubleEps) quarterDense nullObserver (.of 0, .of 0) () (.of (-1 / 8)) (.of (1 / 2)) (.of 1) ()).Ends := by
  refine adaptive_dense_ends_partial (δ := 1 / 4) (binaryFormat_floating (by norm_num)) (fun _ _ _ => by exact True.intro) ?_ ?_ ?_ ?_ ?_ ?_
    (by rw [one_dir]; exact quarterDense_steps) _ () ()
  · change (0 : ℝ) < 2 ^ (-52 : ℤ)
    positivity
  · have := double_number (-1) (-3) (by norm_num)
    norm_num at this ⊢
    exact this
  · have := double_number 1 (-1) (by norm_num)
    norm_num at this ⊢
    exact this
  · change (2 : ℝ) ^ (-52 : ℤ) ≤ _
    norm_num
  · change (1 / 4 : ℝ) ≤ |1|
    norm_num
  · change 4 * (2 : ℝ) ^ (-(53 : ℤ)) * max |(-1 / 8 : ℝ)| |1 / 2| ≤ 2 ^ (-52 : ℤ)
    have : max |(-1 / 8 : ℝ)| |1 / 2| ≤ 1 / 2 := max_le (by rw [abs_le]; constructor <;> norm_num) (by norm_num)
    refine le_trans (mul_le_mul_of_nonneg_left this (by positivity)) ?_
    norm_num

/-- `integrate_adaptive` with a basic stepper: any step size, any times -/
example (t0 t1 : Fl double) :
    (integrateAdaptiveBasic (.rounded double doubleEps) (⟨fun _ x _ _ => pure ((), x)⟩ : BasicStepper Unit Unit Unit (Fl double)) nullObserver () () t0 t1
      (.of (1 / 10)) ()).Ends := by
  refine adaptive_basic_ends (binaryFormat_floating (by norm_num)) (fun _ _ _ _ _ => by exact True.intro) (fun _ _ _ => by exact True.intro) ?_ ?_ () () ()
  · change (0 : ℝ) ≤ 2 ^ (-52 : ℤ)
    positivity
  · change (1 / 10 : ℝ) ≠ 0
    norm_num

end Cases

end Verif
