import Verif.Lemmas.FloatTime
import Verif.Props.RoundingWitness

/-! # C73: integrate_adaptive comes to an end, in floating point arithmetic -/

namespace Verif
variable {ρ : Rounding} {Q W S : Type}

/-- **C73** for controlled steppers.  In every floating point format, for all start and end times and in both directions: if the step sizes of the stepper
do not get too small for the format, `integrate_adaptive` returns (or throws), and the time it ends at is the end time up to the tolerance of the
comparisons and a few roundings. -/
theorem adaptive_controlled_ends (hρ : ρ.Floating) {st : ControlledStepper Q W S (Fl ρ)} {obs : Observer W S (Fl ρ)} (hobs : ∀ x t w, (obs x t w).Ends)
    {eps t0 t1 dt : Fl ρ} {δ : ℝ} (heps : 0 ≤ eps.val) (ht0 : t0.IsNumber) (ht1 : t1.IsNumber) (hdt : dt.val ≠ 0) (hδ : 0 < δ) (hδdt : δ ≤ |dt.val|)
    (hδu : 4 * ρ.u * max |t0.val| |t1.val| ≤ δ) (hst : StepsAtLeast st dt.dir δ) (q : Q) (x : S) (w : W) :
    (integrateAdaptiveControlled (.rounded ρ eps) st obs q x t0 t1 dt w).Sat
      (fun r _ => 0 ≤ dt.dir * (t1.val - t0.val) → |r.t.val - t1.val| ≤ 2 * eps.val + 2 * ρ.u * (|t1.val| + |t1.val - t0.val|))
      (fun _ _ => True) False := by
  set s := dt.dir with hsdef
  have hs : s = 1 ∨ s = -1 := dt.dir_cases
  have hsdt : 0 < s * dt.val := dir_pos hdt
  have hsabs : s * dt.val = |dt.val| := by rw [← dir_abs hs, abs_of_pos hsdt]
  set Bd := 2 * eps.val + 2 * ρ.u * (|t1.val| + |t1.val - t0.val|) with hBd
  have hu := hρ.nonneg
  have hBd0 : 0 ≤ Bd := by positivity
  set κ : ℝ := if t1.val = 0 then δ / 2 else min (δ / 2) (|t1.val| / 4) with hκ
  have hκ0 : 0 < κ := by
    rw [hκ]
    split
    · positivity
    · rename_i h
      exact lt_min (by positivity) (by have := abs_pos.2 h; positivity)
  have hκδ : κ ≤ δ / 2 := by
    rw [hκ]
    split
    · exact le_rfl
    · exact min_le_left _ _
  set I : AdaptState Q S (Fl ρ) × ℕ → Prop := fun p =>
    0 < s * p.1.dt.val ∧ p.1.t.IsNumber ∧ s * t0.val ≤ s * p.1.t.val ∧ (δ ≤ s * p.1.dt.val ∨ s * (t1.val - p.1.t.val) ≤ s * p.1.dt.val) ∧
      (0 ≤ s * (t1.val - t0.val) → s * (p.1.t.val - t1.val) ≤ Bd) with hI
  set d : AdaptState Q S (Fl ρ) × ℕ → ℝ := fun p => s * (t1.val - p.1.t.val) with hd
  unfold integrateAdaptiveControlled
  refine Res.Sat.bind ((whileM_sat_total (E := fun _ _ => True) (D := False) (fun p _ => I p) (fun p _ => countdown κ (d p)) (fun p w hp hcond => ?_)
    (show I (⟨q, x, t0, dt, 0, true⟩, 0) from ?_)).mono (fun p w' hp => ?_) (fun _ _ _ => trivial) id)
  · -- one iteration
    obtain ⟨i1, i2, i3, i4, i5⟩ := hp
    rw [less_dir hs i1] at hcond
    have hd0 : 0 < d p := hρ.rnd_pos (heps.trans_lt hcond)
    obtain ⟨c1, c2, c3⟩ := step_to_end hρ hs i2 ht1 hd0
    have hdle : d p ≤ |t1.val - t0.val| := by
      rw [← dir_abs hs]
      refine le_trans ?_ (le_abs_self _)
      simp only [hd, mul_sub]
      linarith
    refine Res.Sat.bind ((hobs _ _ _).mono (fun _ w' _ => ?_) (fun _ _ _ => trivial) id)
    set dtc := clipDt (.rounded ρ eps) p.1.t t1 p.1.dt with hdtc
    have hclip : (dtc = t1 - p.1.t) ∨ (dtc = p.1.dt ∧ s * ((p.1.t + p.1.dt).val - t1.val) ≤ 2 * eps.val) := by
      rw [hdtc]
      unfold clipDt
      split
      · exact .inl rfl
      · rename_i hc
        rw [less_dir hs i1, not_lt] at hc
        refine .inr ⟨rfl, ?_⟩
        rcases le_or_gt (s * ((p.1.t + p.1.dt).val - t1.val)) 0 with h | h
        · linarith
        · have := hρ.lower h.le
          have hc' : ρ.rnd (s * ((p.1.t + p.1.dt).val - t1.val)) ≤ eps.val := hc
          linarith
    have hdtc0 : 0 < s * dtc.val := by
      rcases hclip with h | h
      · rw [h]; linarith
      · rw [h.1]; exact i1
    refine Res.Sat.bind ((retry_ends hδ hst { p.1 with dt := dtc } hdtc0 w').mono (fun r w'' hr => ?_) (fun _ _ _ => trivial) id)
    obtain ⟨h, r1, r2, r3, r4, r5⟩ := hr
    dsimp only at r1 r3 r4 r5
    have r6 : 0 < s * r.dt.val := (lt_min r2 hδ).trans_le r5
    -- the new time
    have n1 : r.t.IsNumber := by rw [r1]; exact hρ.add_isNumber _ _
    have n2 : s * p.1.t.val ≤ s * r.t.val := by
      rw [r1, Fl.val_add]
      have := hρ.mono_dir hs (a := p.1.t.val) (b := p.1.t.val + h.val) (by rw [mul_add]; linarith)
      rwa [i2] at this
    have n3 : s * (r.t.val - t1.val) ≤ Bd := by
      have m1 : s * r.t.val ≤ s * (p.1.t + dtc).val := by
        rw [r1, Fl.val_add, Fl.val_add]
        exact hρ.mono_dir hs (by rw [mul_add, mul_add]; linarith)
      have m2 : s * ((p.1.t + dtc).val - t1.val) ≤ Bd := by
        rcases hclip with hc | hc
        · rw [hc]
          have : s * ((p.1.t + (t1 - p.1.t)).val - t1.val) ≤ |(p.1.t + (t1 - p.1.t)).val - t1.val| := by
            rw [← dir_abs hs]; exact le_abs_self _
          refine this.trans (c2.trans ?_)
          have e1 : ρ.u * (17 / 16 * d p + |t1.val|) ≤ ρ.u * (2 * (|t1.val| + |t1.val - t0.val|)) :=
            mul_le_mul_of_nonneg_left (by linarith [abs_nonneg t1.val, abs_nonneg (t1.val - t0.val)]) hu
          have e2 : s * (t1.val - p.1.t.val) = d p := rfl
          rw [e2]
          linarith
        · rw [hc.1]
          refine hc.2.trans ?_
          have : 0 ≤ 2 * ρ.u * (|t1.val| + |t1.val - t0.val|) := by positivity
          linarith
      rw [mul_sub] at m2 ⊢
      linarith
    have key : (δ ≤ s * r.dt.val ∨ s * (t1.val - r.t.val) ≤ s * r.dt.val) ∧ (s * (t1.val - r.t.val) ≤ 0 ∨ s * (t1.val - r.t.val) ≤ d p - κ) := by
      by_cases hbig : δ ≤ s * h.val
      · refine ⟨.inl ((le_min hbig le_rfl).trans r5), ?_⟩
        have := (step_towards hρ hs (t1 := t1) i2 hδ hδu i3 hbig).2
        rw [← r1] at this
        rcases this with g | g
        · exact .inl g
        · exact .inr (g.trans (by simp only [hd]; linarith))
      · have hh : h = dtc := by
          rcases r4 with g | g
          · exact g
          · exact absurd g hbig
        have r5' : s * h.val ≤ s * r.dt.val := by
          rw [min_eq_left (not_le.1 hbig).le] at r5
          exact r5
        rcases hclip with hc | hc
        · rw [hh, hc] at r1 r5'
          rcases c3 with g | ⟨g1, g2, g3⟩
          · rw [← r1] at g
            rw [g, sub_self, mul_zero]
            exact ⟨.inr r6.le, .inl le_rfl⟩
          · rw [← r1] at g2
            have g4 : s * (t1.val - r.t.val) ≤ d p / 4 := by
              refine le_trans ?_ g2
              rw [abs_sub_comm, ← dir_abs hs]
              exact le_abs_self _
            have e2 : s * (t1.val - p.1.t.val) = d p := rfl
            rw [e2] at c1 g3
            refine ⟨.inr (by linarith), .inr ?_⟩
            have : κ ≤ |t1.val| / 4 := by
              rw [hκ, if_neg g1]
              exact min_le_right _ _
            linarith [abs_nonneg t1.val]
        · rw [hh, hc.1] at r1 hbig
          have g1 : s * (t1.val - p.1.t.val) ≤ s * p.1.dt.val := by
            rcases i4 with g | g
            · exact absurd g hbig
            · exact g
          have g2 : s * t1.val ≤ s * r.t.val := by
            rw [r1, Fl.val_add]
            have := hρ.mono_dir hs (a := t1.val) (b := p.1.t.val + p.1.dt.val) (by rw [mul_sub] at g1; rw [mul_add]; linarith)
            rwa [ht1] at this
          have g3 : s * (t1.val - r.t.val) ≤ 0 := by rw [mul_sub]; linarith
          exact ⟨.inr (g3.trans r6.le), .inl g3⟩
    exact ⟨⟨r6, n1, i3.trans n2, key.1, fun _ => n3⟩, countdown_lt hκ0 hd0 key.2⟩
  · -- at the start
    refine ⟨hsdt, ht0, le_rfl, .inl (by rw [hsabs]; exact hδdt), fun h => ?_⟩
    dsimp only
    rw [mul_sub] at h ⊢
    linarith
  · -- at the end
    obtain ⟨⟨i1, i2, i3, i4, i5⟩, hc⟩ := hp
    rw [← Bool.not_eq_true, less_dir hs i1, not_lt] at hc
    refine Res.Sat.bind ((hobs _ _ _).mono (fun _ w' _ => ?_) (fun _ _ _ => trivial) id)
    intro h
    dsimp only
    rw [← dir_abs hs, abs_le]
    refine ⟨?_, i5 h⟩
    rcases le_or_gt (s * (t1.val - p.1.t.val)) 0 with g | g
    · rw [mul_sub] at g ⊢
      linarith
    · have := hρ.lower g.le
      have e : 0 ≤ 2 * ρ.u * (|t1.val| + |t1.val - t0.val|) := by positivity
      rw [mul_sub] at this hc ⊢
      linarith


theorem Rounding.Floating.lower_dir (hρ : ρ.Floating) {s y : ℝ} (hs : s = 1 ∨ s = -1) (hy : 0 ≤ s * y) : 15 / 16 * (s * y) ≤ s * ρ.rnd y := by
  have h1 := hρ.relative y
  rw [← dir_abs hs, ← dir_abs hs y, abs_of_nonneg hy, abs_le, mul_sub] at h1
  have := mul_le_mul_of_nonneg_right hρ.small hy
  linarith [h1.1]

/-- **C73** for `integrate_const` with steppers without step size control: it always returns (or throws). -/
theorem const_basic_ends (hρ : ρ.Floating) {st : BasicStepper Q W S (Fl ρ)} (hst : ∀ q x t dt w, (st.doStep q x t dt w).Ends)
    {obs : Observer W S (Fl ρ)} (hobs : ∀ x t w, (obs x t w).Ends) {eps t0 t1 dt : Fl ρ} (heps : 0 ≤ eps.val) (hdt : dt.val ≠ 0) (q : Q) (x : S) (w : W) :
    (integrateConstBasic (.rounded ρ eps) st obs q x t0 t1 dt w).Ends := by
  set A := TimeArith.rounded ρ eps with hA
  set s := dt.dir with hsdef
  have hs : s = 1 ∨ s = -1 := dt.dir_cases
  have hsdt : 0 < s * dt.val := dir_pos hdt
  obtain ⟨N, hN⟩ := exists_nat_gt ((|t0.val| + 2 * (|t1.val| + 2 * eps.val)) / (s * dt.val / 2))
  rw [div_lt_iff₀ (by positivity)] at hN
  have far : ∀ n : ℕ, N ≤ n → A.lessEqWithSign (A.add (A.add t0 (A.nmul n dt)) dt) t1 dt = false := by
    intro n hn
    rw [← Bool.not_eq_true, lessEq_dir hs hsdt, not_le]
    have hn' : (N : ℝ) ≤ n := by exact_mod_cast hn
    have e1 : (n : ℝ) * (s * dt.val / 2) ≤ s * (A.nmul n dt).val := by
      have h1 : (A.nmul n dt).val = ρ.rnd (ρ.rnd ((n : ℤ) : ℝ) * dt.val) := rfl
      rw [h1]
      have h2 := hρ.lower (y := ((n : ℤ) : ℝ)) (by positivity)
      have h2' : 15 / 16 * (n : ℝ) ≤ ρ.rnd ((n : ℤ) : ℝ) := by simpa using h2
      have h3 : 15 / 16 * (n : ℝ) * (s * dt.val) ≤ ρ.rnd ((n : ℤ) : ℝ) * (s * dt.val) := mul_le_mul_of_nonneg_right h2' hsdt.le
      have h4 : s * (ρ.rnd ((n : ℤ) : ℝ) * dt.val) = ρ.rnd ((n : ℤ) : ℝ) * (s * dt.val) := by ring
      have h5 : 0 ≤ (n : ℝ) * (s * dt.val) := by positivity
      have h6 := hρ.lower_dir hs (y := ρ.rnd ((n : ℤ) : ℝ) * dt.val) (by rw [h4]; linarith)
      rw [h4] at h6
      linarith
    have e2 : (N : ℝ) * (s * dt.val / 2) ≤ (n : ℝ) * (s * dt.val / 2) := mul_le_mul_of_nonneg_right hn' (by positivity)
    have e3 : -|t0.val| ≤ s * t0.val := by rw [← dir_abs hs]; exact neg_abs_le _
    have e4 : s * t1.val ≤ |t1.val| := by rw [← dir_abs hs]; exact le_abs_self _
    have e5 : |t1.val| + 2 * eps.val ≤ 1 / 2 * (s * (t0.val + (A.nmul n dt).val)) := by rw [mul_add]; linarith
    have e6 : 0 ≤ s * (t0.val + (A.nmul n dt).val) := by linarith [abs_nonneg t1.val]
    have e7 := hρ.lower_dir hs e6
    have e8 : (A.add t0 (A.nmul n dt)).val = ρ.rnd (t0.val + (A.nmul n dt).val) := rfl
    rw [← e8] at e7
    have e9 : 0 ≤ s * ((A.add t0 (A.nmul n dt)).val + dt.val) := by rw [mul_add]; linarith
    have e10 := hρ.lower_dir hs e9
    have e11 : (A.add (A.add t0 (A.nmul n dt)) dt).val = ρ.rnd ((A.add t0 (A.nmul n dt)).val + dt.val) := rfl
    rw [← e11, mul_add] at e10
    have e12 : |t1.val| + 2 * eps.val ≤ 15 / 16 * (15 / 16 * (s * (t0.val + (A.nmul n dt).val))) := by linarith
    have e13 : 2 * eps.val < s * ((A.add (A.add t0 (A.nmul n dt)) dt).val - t1.val) := by rw [mul_sub]; linarith
    have e14 := hρ.lower (y := s * ((A.add (A.add t0 (A.nmul n dt)) dt).val - t1.val)) (by linarith)
    linarith
  unfold integrateConstBasic
  refine Res.Sat.bind ((whileM_sat_total (E := fun _ _ => True) (D := False)
    (fun (c : ConstState Q S (Fl ρ)) _ => c.step = 0 ∨ c.time = A.add t0 (A.nmul c.step dt)) (fun c _ => N + 1 - c.step) (fun c w hc hcond => ?_)
    (.inl rfl)).mono (fun c w' hc => ?_) (fun _ _ _ => trivial) id)
  · have hlt : c.step < N + 1 := by
      by_contra hge
      rcases hc with hc | hc
      · omega
      · rw [hc, far _ (by omega)] at hcond
        exact absurd hcond (by decide)
    refine Res.Sat.bind ((hobs _ _ _).mono (fun _ w' _ => ?_) (fun _ _ _ => trivial) id)
    refine Res.Sat.bind ((hst _ _ _ _ _).mono (fun r w'' _ => ?_) (fun _ _ _ => trivial) id)
    exact ⟨.inr rfl, by dsimp only; omega⟩
  · exact Res.Sat.bind ((hobs _ _ _).mono (fun _ w' _ => trivial) (fun _ _ _ => trivial) id)

/-- **C73** for `integrate_adaptive` with steppers without step size control. -/
theorem adaptive_basic_ends (hρ : ρ.Floating) {st : BasicStepper Q W S (Fl ρ)} (hst : ∀ q x t dt w, (st.doStep q x t dt w).Ends)
    {obs : Observer W S (Fl ρ)} (hobs : ∀ x t w, (obs x t w).Ends) {eps t0 t1 dt : Fl ρ} (heps : 0 ≤ eps.val) (hdt : dt.val ≠ 0) (q : Q) (x : S) (w : W) :
    (integrateAdaptiveBasic (.rounded ρ eps) st obs q x t0 t1 dt w).Ends := by
  unfold integrateAdaptiveBasic
  refine Res.Sat.bind ((const_basic_ends hρ hst hobs heps hdt q x w).mono (fun r w' _ => ?_) (fun _ _ _ => trivial) id)
  obtain ⟨x', n⟩ := r
  dsimp only
  split
  · refine Res.Sat.bind ((hst _ _ _ _ _).mono (fun r w'' _ => ?_) (fun _ _ _ => trivial) id)
    exact Res.Sat.bind ((hobs _ _ _).mono (fun _ w' _ => trivial) (fun _ _ _ => trivial) id)
  · trivial

/-- **C73** for dense output steppers, for times up to `eps / ( 4 u )` in absolute value.  For `double` this is `1/2`: the tolerance `eps` of the
comparisons is absolute, it is larger than the rounding errors for such times only. -/
theorem adaptive_dense_ends_partial (hρ : ρ.Floating) {st : DenseStepper Q W S (Fl ρ)} {obs : Observer W S (Fl ρ)} (hobs : ∀ x t w, (obs x t w).Ends)
    {eps t0 t1 dt : Fl ρ} {δ : ℝ} (heps : 0 < eps.val) (ht0 : t0.IsNumber) (ht1 : t1.IsNumber) (hδ : eps.val ≤ δ) (hδdt : δ ≤ |dt.val|)
    (hR : 4 * ρ.u * max |t0.val| |t1.val| ≤ eps.val) (hst : DenseStepsAtLeast st dt.dir δ) (q : Q) (x : S) (w : W) :
    (integrateAdaptiveDense (.rounded ρ eps) st obs q x t0 t1 dt w).Ends := by
  set A := TimeArith.rounded ρ eps with hA
  have hdt : dt.val ≠ 0 := fun h => by rw [h, abs_zero] at hδdt; linarith
  set s := dt.dir with hsdef
  have hs : s = 1 ∨ s = -1 := dt.dir_cases
  have hsdt : 0 < s * dt.val := dir_pos hdt
  have hsabs : s * dt.val = |dt.val| := by rw [← dir_abs hs, abs_of_pos hsdt]
  set R := max |t0.val| |t1.val| with hRdef
  have hR0 : |t0.val| ≤ R := le_max_left _ _
  have hR1 : |t1.val| ≤ R := le_max_right _ _
  have hu := hρ.nonneg
  have hRn : 0 ≤ R := (abs_nonneg _).trans hR0
  set κ := eps.val / 4 with hκ
  have hκ0 : 0 < κ := by positivity
  set D : Q → ℝ := fun q => s * (t1.val - (st.curTime q).val) + 2 * eps.val with hD
  -- what all steps have in common
  set I : Q → Prop := fun q => (st.curTime q).IsNumber ∧ s * t0.val ≤ s * (st.curTime q).val with hI
  have onestep : ∀ q w, I q → 3 / 4 * eps.val ≤ s * (st.curDt q).val → A.lessEqWithSign (A.add (st.curTime q) (st.curDt q)) t1 (st.curDt q) = true →
      0 < D q ∧ (st.doStep q w).Sat (fun q' _ => I q' ∧ 3 / 4 * eps.val ≤ s * (st.curDt q').val ∧
        ρ.rnd (s * ((st.curTime q').val - t1.val)) ≤ eps.val ∧ D q' ≤ D q - κ) (fun _ _ => True) False := by
    intro q w hq hdtq hc
    have hpos : 0 < s * (st.curDt q).val := by linarith
    rw [lessEq_dir hs hpos] at hc
    have hc' : s * ((st.curTime q + st.curDt q).val - t1.val) ≤ 16 / 15 * eps.val := by
      rcases le_or_gt (s * ((st.curTime q + st.curDt q).val - t1.val)) 0 with h | h
      · linarith
      · have := hρ.lower h.le
        have hc2 : ρ.rnd (s * ((st.curTime q + st.curDt q).val - t1.val)) ≤ eps.val := hc
        linarith
    have up : ∀ h : Fl ρ, 0 ≤ s * h.val → s * (st.curTime q).val ≤ s * (st.curTime q + h).val := by
      intro h hh
      rw [Fl.val_add]
      have := hρ.mono_dir hs (a := (st.curTime q).val) (b := (st.curTime q).val + h.val) (by rw [mul_add]; linarith)
      rwa [hq.1] at this
    refine ⟨?_, (hst.step q w hpos).mono (fun q' _ hq' => ?_) (fun _ _ _ => trivial) id⟩
    · have := up _ hpos.le
      simp only [hD]
      rw [mul_sub] at hc' ⊢
      linarith
    · obtain ⟨⟨h, e1, e2, e3⟩, e4⟩ := hq'
      have hmin : 3 / 4 * eps.val ≤ min (s * (st.curDt q).val) δ := le_min hdtq (by linarith)
      have eh : 3 / 4 * eps.val ≤ s * h.val := hmin.trans e3
      have m1 := up h (by linarith)
      have m2 : s * (st.curTime q + h).val ≤ s * (st.curTime q + st.curDt q).val := by
        rw [Fl.val_add, Fl.val_add]
        exact hρ.mono_dir hs (by rw [mul_add, mul_add]; linarith)
      refine ⟨⟨by rw [e1]; exact hρ.add_isNumber _ _, by rw [e1]; exact hq.2.trans m1⟩, hmin.trans e4, ?_, ?_⟩
      · rw [e1]
        refine le_trans (hρ.mono ?_) hc
        change s * ((st.curTime q + h).val - t1.val) ≤ s * ((st.curTime q + st.curDt q).val - t1.val)
        rw [mul_sub, mul_sub]
        linarith
      · have b : |(st.curTime q + h).val| ≤ R + 16 / 15 * eps.val := by
          rw [← dir_abs hs, abs_le]
          rw [← dir_abs hs, abs_le] at hR0 hR1
          rw [mul_sub] at hc'
          have := hq.2
          constructor <;> linarith [hR0.1, hR1.2]
        have b2 := hρ.abs_le_of_rnd ((st.curTime q).val + h.val)
        rw [← Fl.val_add] at b2
        have b3 := hρ.relative ((st.curTime q).val + h.val)
        rw [← Fl.val_add, ← dir_abs hs, abs_le, mul_sub, mul_add] at b3
        have b4 : ρ.u * |(st.curTime q).val + h.val| ≤ eps.val / 2 := by
          calc ρ.u * |(st.curTime q).val + h.val| ≤ ρ.u * (16 / 15 * (R + 16 / 15 * eps.val)) := mul_le_mul_of_nonneg_left (by linarith) hu
            _ = 16 / 15 * (ρ.u * R) + 256 / 225 * (ρ.u * eps.val) := by ring
            _ ≤ eps.val / 2 := by
              have := mul_le_mul_of_nonneg_right hρ.small heps.le
              linarith
        simp only [hD, e1, hκ]
        rw [mul_sub, mul_sub]
        linarith [b3.1]
  -- the inner loop
  set inner : Q × ℕ → M W (Q × ℕ) := whileM
        (fun p : Q × ℕ =>
          A.lessEqWithSign (A.add (st.curTime p.1) (st.curDt p.1)) t1 (st.curDt p.1))
        (fun p => do
          obs (st.curState p.1) (st.curTime p.1)
          let q ← st.doStep p.1
          return (q, p.2 + 1)) with hinner
  have innerSat : ∀ p w, I p.1 → 3 / 4 * eps.val ≤ s * (st.curDt p.1).val → ρ.rnd (s * ((st.curTime p.1).val - t1.val)) ≤ eps.val →
      (inner p w).Sat (fun p' _ => I p'.1 ∧ ρ.rnd (s * ((st.curTime p'.1).val - t1.val)) ≤ eps.val ∧
        (p'.1 = p.1 ∧ A.lessEqWithSign (A.add (st.curTime p.1) (st.curDt p.1)) t1 (st.curDt p.1) = false ∨ D p'.1 ≤ D p.1 - κ)) (fun _ _ => True) False := by
    intro p w h1 h2 h3
    refine (whileM_sat_total (E := fun _ _ => True) (D := False) (fun p' _ => I p'.1 ∧ 3 / 4 * eps.val ≤ s * (st.curDt p'.1).val ∧
      ρ.rnd (s * ((st.curTime p'.1).val - t1.val)) ≤ eps.val ∧ (p'.1 = p.1 ∨ D p'.1 ≤ D p.1 - κ)) (fun p' _ => countdown κ (D p'.1))
      (fun p' w hp' hc => ?_) ⟨h1, h2, h3, .inl rfl⟩).mono (fun p' w' hp' => ?_) (fun _ _ _ => trivial) id
    · obtain ⟨g1, g2, g3, g4⟩ := hp'
      refine Res.Sat.bind ((hobs _ _ _).mono (fun _ w' _ => ?_) (fun _ _ _ => trivial) id)
      obtain ⟨f1, f2⟩ := onestep p'.1 w' g1 g2 hc
      refine Res.Sat.bind (f2.mono (fun q' w'' hq' => ?_) (fun _ _ _ => trivial) id)
      obtain ⟨k1, k2, k3, k4⟩ := hq'
      refine ⟨⟨k1, k2, k3, .inr ?_⟩, countdown_lt hκ0 f1 (.inr k4)⟩
      rcases g4 with g4 | g4
      · rw [g4] at k4; exact k4
      · dsimp only; linarith
    · obtain ⟨⟨g1, g2, g3, g4⟩, hc⟩ := hp'
      refine ⟨g1, g3, ?_⟩
      rcases g4 with g4 | g4
      · rw [g4] at hc
        exact .inl ⟨g4, hc⟩
      · exact .inr g4
  unfold integrateAdaptiveDense
  refine Res.Sat.bind ((hst.init q x t0 dt w).mono (fun q0 w0 hq0 => ?_) (fun _ _ _ => trivial) id)
  classical
  refine Res.Sat.bind ((whileM_sat_total (E := fun _ _ => True) (D := False)
    (fun p _ => I p.1 ∧ (A.lessWithSign (st.curTime p.1) t1 (st.curDt p.1) = true → 3 / 4 * eps.val ≤ s * (st.curDt p.1).val))
    (fun p _ => 2 * countdown κ (D p.1) + if st.curDt p.1 = t1 - st.curTime p.1 then 0 else 1)
    (fun p w hp hcond => ?_) (show _ from ?_)).mono (fun p w' hp => ?_) (fun _ _ _ => trivial) id)
  · obtain ⟨i1, i2⟩ := hp
    have i3 := i2 hcond
    have hpos : 0 < s * (st.curDt p.1).val := by linarith
    have hcond' := hcond
    rw [less_dir hs hpos] at hcond
    have hd0 : 0 < s * (t1.val - (st.curTime p.1).val) := hρ.rnd_pos (heps.trans hcond)
    have hneg : ρ.rnd (s * ((st.curTime p.1).val - t1.val)) ≤ eps.val := by
      have : s * ((st.curTime p.1).val - t1.val) ≤ 0 := by rw [mul_sub] at hd0 ⊢; linarith
      have := hρ.mono this
      rw [hρ.rnd_zero] at this
      linarith
    obtain ⟨c1, c2, -⟩ := step_to_end hρ hs i1.1 ht1 hd0
    have hdle : s * (t1.val - (st.curTime p.1).val) ≤ 2 * R := by
      have h1 : s * t1.val ≤ R := by
        refine le_trans ?_ hR1
        rw [← dir_abs hs]; exact le_abs_self _
      have h2 : -R ≤ s * t0.val := by
        rw [← dir_abs hs, abs_le] at hR0
        exact hR0.1
      rw [mul_sub]
      linarith [i1.2]
    -- a step to the end would be made
    have hfinal : st.curDt p.1 = t1 - st.curTime p.1 →
        A.lessEqWithSign (A.add (st.curTime p.1) (st.curDt p.1)) t1 (st.curDt p.1) = true := by
      intro he
      rw [lessEq_dir hs hpos, he]
      set y := (st.curTime p.1 + (t1 - st.curTime p.1)).val - t1.val with hy
      change ρ.rnd (s * y) ≤ eps.val
      have hy' : |y| ≤ 13 / 16 * eps.val := by
        refine c2.trans ?_
        calc ρ.u * (17 / 16 * (s * (t1.val - (st.curTime p.1).val)) + |t1.val|) ≤ ρ.u * (25 / 8 * R) :=
              mul_le_mul_of_nonneg_left (by linarith) hu
          _ ≤ 13 / 16 * eps.val := by linarith
      have h1 := hρ.relative (s * y)
      rw [dir_abs hs, abs_le] at h1
      have h2 : s * y ≤ |y| := by rw [← dir_abs hs]; exact le_abs_self _
      have h3 := mul_le_mul_of_nonneg_right hρ.small (abs_nonneg y)
      linarith [h1.2]
    have hDpos : 0 < D p.1 := by simp only [hD]; linarith
    refine Res.Sat.bind ((innerSat p w i1 i3 hneg).mono (fun p' w' hp' => ?_) (fun _ _ _ => trivial) id)
    obtain ⟨f1, f2, f3⟩ := hp'
    refine Res.Sat.bind ((hst.init _ _ _ _ _).mono (fun q' w'' hq' => ?_) (fun _ _ _ => trivial) id)
    obtain ⟨k1, k2⟩ := hq'
    have k2' : st.curDt q' = t1 - st.curTime p'.1 := k2
    have kD : D q' = D p'.1 := by simp only [hD, k1]
    refine ⟨⟨⟨by rw [k1]; exact f1.1, by rw [k1]; exact f1.2⟩, ?_⟩, ?_⟩
    · intro hc
      dsimp only at hc ⊢
      rw [k1] at hc
      rcases lt_trichotomy (s * (t1.val - (st.curTime p'.1).val)) 0 with g | g | g
      · -- beyond the end: the direction of the comparison is reversed, and the loop stops
        exfalso
        have hs' : -s = 1 ∨ -s = -1 := by rcases hs with h | h <;> rw [h] <;> norm_num
        have hdt' : 0 < -s * (st.curDt q').val := by
          have h1 : 0 ≤ -s * (t1.val - (st.curTime p'.1).val) := by linarith
          have := hρ.lower_dir hs' h1
          rw [k2', Fl.val_sub]
          linarith
        rw [less_dir hs' hdt'] at hc
        have : -s * (t1.val - (st.curTime p'.1).val) = s * ((st.curTime p'.1).val - t1.val) := by ring
        rw [this] at hc
        linarith
      · exfalso
        have e : t1.val - (st.curTime p'.1).val = 0 := by
          rcases hs with h | h <;> rw [h] at g <;> linarith
        have hz : (st.curDt q').val = 0 := by rw [k2', Fl.val_sub, e, hρ.rnd_zero]
        have e' : (st.curTime p'.1).val - t1.val = 0 := by linarith
        have z0 : (TimeArith.rounded ρ eps).lt (TimeArith.rounded ρ eps).zero (st.curDt q') = false := by
          change decide ((0 : ℝ) < (st.curDt q').val) = false
          rw [hz]
          simp
        have z1 : A.lessWithSign (st.curTime p'.1) t1 (st.curDt q') = (TimeArith.rounded ρ eps).lt eps (st.curTime p'.1 - t1) := by
          unfold TimeArith.lessWithSign
          rw [hA, z0]
          rfl
        rw [z1] at hc
        have z2 : eps.val < (st.curTime p'.1 - t1).val := of_decide_eq_true hc
        rw [Fl.val_sub, e', hρ.rnd_zero] at z2
        linarith
      · have hlow := hρ.lower_dir hs g.le
        rw [← Fl.val_sub, ← k2'] at hlow
        have hdt' : 0 < s * (st.curDt q').val := by linarith
        rw [less_dir hs hdt'] at hc
        have := hρ.upper g.le
        linarith
    · dsimp only
      rw [kD, if_pos (by rw [k2', k1])]
      rcases f3 with ⟨f3, f4⟩ | f3
      · rw [f3, if_neg (fun he => by rw [hfinal he] at f4; exact absurd f4 (by decide))]
        omega
      · have := countdown_lt hκ0 hDpos (.inr f3)
        omega
  · refine ⟨⟨by rw [hq0.1]; exact ht0, by rw [hq0.1]⟩, fun _ => ?_⟩
    rw [hq0.2, hsabs]
    linarith
  · exact Res.Sat.bind ((hobs _ _ _).mono (fun _ w' _ => trivial) (fun _ _ _ => trivial) id)

end Verif
