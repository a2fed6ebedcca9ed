import Verif.Props.FloatTimeWitness
import Verif.Lemmas.Mirror

/-! # C73: `integrate_times` in floating point arithmetic -/

namespace Verif
variable {ρ : Rounding} {Q W S : Type}

/-- the least progress of a step towards `t1` -/
noncomputable def progress (δ : ℝ) (t1 : Fl ρ) : ℝ := if t1.val = 0 then δ / 2 else min (δ / 2) (|t1.val| / 4)

theorem progress_pos {δ : ℝ} (hδ : 0 < δ) (t1 : Fl ρ) : 0 < progress δ t1 := by
  unfold progress
  split
  · positivity
  · rename_i h
    exact lt_min (by positivity) (by have := abs_pos.2 h; positivity)

theorem progress_le (δ : ℝ) (t1 : Fl ρ) : progress δ t1 ≤ δ / 2 := by
  unfold progress
  split
  · exact le_rfl
  · exact min_le_left _ _

/-- One step of size `h`, when the step size before the step is `dtc` and `r` is the one after it. -/
theorem step_progress (hρ : ρ.Floating) {s : ℝ} (hs : s = 1 ∨ s = -1) {t0 t1 t h dtc r : Fl ρ} {δ : ℝ} (ht : t.IsNumber) (ht1 : t1.IsNumber) (hδ : 0 < δ)
    (hδu : 4 * ρ.u * max |t0.val| |t1.val| ≤ δ) (h0 : s * t0.val ≤ s * t.val) (hd : 0 < s * (t1.val - t.val))
    (hdtc : δ ≤ s * dtc.val ∨ s * (t1.val - t.val) ≤ s * dtc.val ∨ dtc = t1 - t)
    (hh : s * h.val ≤ s * dtc.val) (hmin : min (s * dtc.val) δ ≤ s * h.val) (hr : min (s * dtc.val) δ ≤ s * r.val) :
    s * t.val ≤ s * (t + h).val ∧ (δ ≤ s * r.val ∨ s * (t1.val - (t + h).val) ≤ s * r.val) ∧
      (s * (t1.val - (t + h).val) ≤ 0 ∨ s * (t1.val - (t + h).val) ≤ s * (t1.val - t.val) - progress δ t1) := by
  obtain ⟨c1, c2, c3⟩ := step_to_end hρ hs ht ht1 hd
  have hpos : 0 < s * dtc.val := by
    rcases hdtc with g | g | g
    · linarith
    · linarith
    · rw [g]; linarith
  have hh0 : 0 < s * h.val := (lt_min hpos hδ).trans_le hmin
  have hr0 : 0 < s * r.val := (lt_min hpos hδ).trans_le hr
  have n2 : s * t.val ≤ s * (t + h).val := by
    rw [Fl.val_add]
    have := hρ.mono_dir hs (a := t.val) (b := t.val + h.val) (by rw [mul_add]; linarith)
    rwa [ht] at this
  refine ⟨n2, ?_⟩
  by_cases hbig : δ ≤ s * h.val
  · refine ⟨.inl ((le_min (hbig.trans hh) le_rfl).trans hr), ?_⟩
    rcases (step_towards hρ hs (t1 := t1) ht hδ hδu h0 hbig).2 with g | g
    · exact .inl g
    · exact .inr (g.trans (by linarith [progress_le δ t1]))
  · rw [not_le] at hbig
    have hsmall : s * dtc.val < δ := by
      by_contra g
      rw [not_lt] at g
      rw [min_eq_right g] at hmin
      linarith
    rw [min_eq_left hsmall.le] at hmin hr
    have hval : h.val = dtc.val := by
      have : s * h.val = s * dtc.val := le_antisymm hh hmin
      have e := congrArg (s * ·) this
      simp only [← mul_assoc, dir_sq hs, one_mul] at e
      exact e
    have hadd : (t + h).val = (t + dtc).val := by rw [Fl.val_add, Fl.val_add, hval]
    rcases hdtc with g | g | g
    · linarith
    · have g2 : s * t1.val ≤ s * (t + h).val := by
        rw [hadd, Fl.val_add]
        have := hρ.mono_dir hs (a := t1.val) (b := t.val + dtc.val) (by rw [mul_sub] at g; rw [mul_add]; linarith)
        rwa [ht1] at this
      have g3 : s * (t1.val - (t + h).val) ≤ 0 := by rw [mul_sub]; linarith
      exact ⟨.inr (g3.trans hr0.le), .inl g3⟩
    · rw [hadd, g]
      rw [g] at hr
      rcases c3 with c | ⟨g1, g2, g3⟩
      · rw [c, sub_self, mul_zero]
        exact ⟨.inr hr0.le, .inl le_rfl⟩
      · have g4 : s * (t1.val - (t + (t1 - t)).val) ≤ s * (t1.val - t.val) / 4 := by
          refine le_trans ?_ g2
          rw [abs_sub_comm, ← dir_abs hs]
          exact le_abs_self _
        refine ⟨.inr (by linarith), .inr ?_⟩
        have : progress δ t1 ≤ |t1.val| / 4 := by
          unfold progress
          rw [if_neg g1]
          exact min_le_right _ _
        linarith [abs_nonneg t1.val]

theorem minAbs_dir {s : ℝ} (hs : s = 1 ∨ s = -1) {eps a b : Fl ρ} (ha : 0 < s * a.val) :
    ((TimeArith.rounded ρ eps).minAbs a b = a ∧ s * a.val ≤ s * b.val) ∨ ((TimeArith.rounded ρ eps).minAbs a b = b ∧ s * b.val ≤ s * a.val) := by
  rcases hs with rfl | rfl
  · have h : 0 < a.val := by simpa using ha
    by_cases hb : b.val < a.val
    · right
      refine ⟨?_, by linarith⟩
      simp [TimeArith.minAbs, TimeArith.stdMin, TimeArith.rounded, h, hb, show (Fl.of (ρ := ρ) 0).val = 0 from rfl]
    · left
      refine ⟨?_, by linarith⟩
      simp [TimeArith.minAbs, TimeArith.stdMin, TimeArith.rounded, h, hb, show (Fl.of (ρ := ρ) 0).val = 0 from rfl]
  · have h : ¬ 0 < a.val := by simp at ha; linarith
    by_cases hb : a.val < b.val
    · right
      refine ⟨?_, by linarith⟩
      simp [TimeArith.minAbs, TimeArith.stdMax, TimeArith.rounded, h, hb, show (Fl.of (ρ := ρ) 0).val = 0 from rfl]
    · left
      refine ⟨?_, by linarith⟩
      simp [TimeArith.minAbs, TimeArith.stdMax, TimeArith.rounded, h, hb, show (Fl.of (ρ := ρ) 0).val = 0 from rfl]

theorem maxAbs_dir {s : ℝ} (hs : s = 1 ∨ s = -1) {eps a b : Fl ρ} (ha : 0 < s * a.val) :
    s * a.val ≤ s * ((TimeArith.rounded ρ eps).maxAbs a b).val := by
  rcases hs with rfl | rfl
  · have h : 0 < a.val := by simpa using ha
    by_cases hb : a.val < b.val
    · simp [TimeArith.maxAbs, TimeArith.stdMax, TimeArith.rounded, h, hb, show (Fl.of (ρ := ρ) 0).val = 0 from rfl]
      linarith
    · simp [TimeArith.maxAbs, TimeArith.stdMax, TimeArith.rounded, h, hb, show (Fl.of (ρ := ρ) 0).val = 0 from rfl]
  · have h : ¬ 0 < a.val := by simp at ha; linarith
    by_cases hb : b.val < a.val
    · simp [TimeArith.maxAbs, TimeArith.stdMin, TimeArith.rounded, h, hb, show (Fl.of (ρ := ρ) 0).val = 0 from rfl]
      linarith
    · simp [TimeArith.maxAbs, TimeArith.stdMin, TimeArith.rounded, h, hb, show (Fl.of (ρ := ρ) 0).val = 0 from rfl]

/-- The step size is large enough for all times of the list. -/
def ResolvesTimes (ρ : Rounding) (δ : ℝ) (times : List (Fl ρ)) : Prop := ∀ t ∈ times, t.IsNumber ∧ 4 * ρ.u * |t.val| ≤ δ

theorem ResolvesTimes.pair {δ : ℝ} {l : List (Fl ρ)} (h : ResolvesTimes ρ δ l) (hρ : ρ.Floating) {a b : Fl ρ} (ha : a ∈ l) (hb : b ∈ l) :
    4 * ρ.u * max |a.val| |b.val| ≤ δ := by
  rw [mul_max_of_nonneg _ _ (by have := hρ.nonneg; positivity)]
  exact max_le (h a ha).2 (h b hb).2

/-- **C73** for `integrate_times` with a basic stepper: it returns (or throws) for all sequences of times that the step size can resolve. -/
theorem times_basic_ends (hρ : ρ.Floating) {st : BasicStepper Q W S (Fl ρ)} (hst : ∀ q x t dt w, (st.doStep q x t dt w).Ends)
    {obs : Observer W S (Fl ρ)} (hobs : ∀ x t w, (obs x t w).Ends) {eps dt : Fl ρ} {times : List (Fl ρ)} (heps : 0 ≤ eps.val) (hdt : dt.val ≠ 0)
    (hne : times ≠ []) (htimes : ResolvesTimes ρ |dt.val| times) (q : Q) (x : S) (w : W) :
    (integrateTimesBasic (.rounded ρ eps) st obs q x times dt w).Ends := by
  set s := dt.dir with hsdef
  have hs : s = 1 ∨ s = -1 := dt.dir_cases
  have hsdt : 0 < s * dt.val := dir_pos hdt
  have hsabs : s * dt.val = |dt.val| := by rw [← dir_abs hs, abs_of_pos hsdt]
  set δ := |dt.val| with hδdef
  have hδ : 0 < δ := abs_pos.2 hdt
  have loop : ∀ l : List (Fl ρ), l ≠ [] → ResolvesTimes ρ δ l → ∀ (a : TimesState Q S (Fl ρ)) w, 0 < s * a.dt.val →
      (timesBasicLoop (.rounded ρ eps) st obs dt l a w).Ends := by
    intro l
    induction l with
    | nil => intro h; exact absurd rfl h
    | cons t l ih =>
      intro _ hl a w ha
      cases l with
      | nil =>
        unfold timesBasicLoop
        exact Res.Sat.bind ((hobs _ _ _).mono (fun _ _ _ => trivial) (fun _ _ _ => trivial) id)
      | cons next rest =>
        unfold timesBasicLoop
        refine Res.Sat.bind ((hobs _ _ _).mono (fun _ w1 _ => ?_) (fun _ _ _ => trivial) id)
        have ht := (hl t (by simp)).1
        have hn := (hl next (by simp)).1
        refine Res.Sat.bind (Res.Sat.mono (Q := fun b _ => 0 < s * b.dt.val) (E := fun _ _ => True) (D := False) ?_ (fun b w2 hb => ?_) (fun _ _ _ => trivial) id)
        · unfold timesBasicInner
          refine (whileM_sat_total (E := fun _ _ => True) (D := False) (fun b _ => 0 < s * b.dt.val ∧ b.time.IsNumber ∧ s * t.val ≤ s * b.time.val)
            (fun b _ => countdown (progress δ next) (s * (next.val - b.time.val))) (fun b w hb hc => ?_) ⟨ha, ht, le_rfl⟩).mono (fun b w' hb => hb.1.1)
            (fun _ _ _ => trivial) id
          obtain ⟨i1, i2, i3⟩ := hb
          rw [less_dir hs i1] at hc
          have hd : 0 < s * (next.val - b.time.val) := hρ.rnd_pos (heps.trans_lt hc)
          obtain ⟨c1, -, -⟩ := step_to_end hρ hs i2 hn hd
          set cdt := (TimeArith.rounded ρ eps).minAbs dt ((TimeArith.rounded ρ eps).sub next b.time) with hcdt
          have hcase : δ ≤ s * cdt.val ∨ s * (next.val - b.time.val) ≤ s * cdt.val ∨ cdt = next - b.time := by
            rcases minAbs_dir hs (eps := eps) (a := dt) (b := (TimeArith.rounded ρ eps).sub next b.time) hsdt with ⟨g, -⟩ | ⟨g, -⟩
            · left
              rw [hcdt, g, hsabs]
            · right; right
              exact g
          have hpos : 0 < s * cdt.val := by
            rcases hcase with g | g | g
            · linarith
            · linarith
            · rw [g]; linarith
          obtain ⟨p1, -, p3⟩ := step_progress hρ hs (t0 := t) (r := cdt) i2 hn hδ (hl.pair hρ (by simp) (by simp)) i3 hd hcase le_rfl (min_le_left _ _)
            (min_le_left _ _)
          refine Res.Sat.bind ((hst _ _ _ _ _).mono (fun r w' _ => ?_) (fun _ _ _ => trivial) id)
          refine ⟨⟨hpos, hρ.add_isNumber _ _, i3.trans p1⟩, countdown_lt (progress_pos hδ _) hd p3⟩
        · exact ih (by simp) (fun t' ht' => hl t' (by simp at ht' ⊢; tauto)) b w2 hb
  exact loop times hne htimes _ w hsdt

/-- **C73** for `integrate_times` with a controlled stepper. -/
theorem times_controlled_ends (hρ : ρ.Floating) {st : ControlledStepper Q W S (Fl ρ)} {obs : Observer W S (Fl ρ)} (hobs : ∀ x t w, (obs x t w).Ends)
    {eps dt : Fl ρ} {times : List (Fl ρ)} {δ : ℝ} (heps : 0 ≤ eps.val) (hdt : dt.val ≠ 0) (hδ : 0 < δ) (hδdt : δ ≤ |dt.val|)
    (hst : StepsAtLeast st dt.dir δ) (hne : times ≠ []) (htimes : ResolvesTimes ρ δ times) (q : Q) (x : S) (w : W) :
    (integrateTimesControlled (.rounded ρ eps) st obs q x times dt w).Ends := by
  set s := dt.dir with hsdef
  have hs : s = 1 ∨ s = -1 := dt.dir_cases
  have hsdt : 0 < s * dt.val := dir_pos hdt
  have hsabs : s * dt.val = |dt.val| := by rw [← dir_abs hs, abs_of_pos hsdt]
  have loop : ∀ l : List (Fl ρ), l ≠ [] → ResolvesTimes ρ δ l → ∀ (a : TimesState Q S (Fl ρ)) w, δ ≤ s * a.dt.val →
      (timesControlledLoop (.rounded ρ eps) st obs l a w).Ends := by
    intro l
    induction l with
    | nil => intro h; exact absurd rfl h
    | cons t l ih =>
      intro _ hl a w ha
      cases l with
      | nil =>
        unfold timesControlledLoop
        exact Res.Sat.bind ((hobs _ _ _).mono (fun _ _ _ => trivial) (fun _ _ _ => trivial) id)
      | cons next rest =>
        unfold timesControlledLoop
        refine Res.Sat.bind ((hobs _ _ _).mono (fun _ w1 _ => ?_) (fun _ _ _ => trivial) id)
        have ht := (hl t (by simp)).1
        have hn := (hl next (by simp)).1
        refine Res.Sat.bind (Res.Sat.mono (Q := fun b _ => δ ≤ s * b.dt.val) (E := fun _ _ => True) (D := False) ?_ (fun b w2 hb => ?_) (fun _ _ _ => trivial) id)
        · unfold timesControlledInner
          refine (whileM_sat_total (E := fun _ _ => True) (D := False) (fun b _ => δ ≤ s * b.dt.val ∧ b.time.IsNumber ∧ s * t.val ≤ s * b.time.val)
            (fun b _ => 502 * countdown (progress δ next) (s * (next.val - b.time.val)) + (501 - b.fails)) (fun b w hb hc => ?_) ⟨ha, ht, le_rfl⟩).mono (fun b w' hb => hb.1.1)
            (fun _ _ _ => trivial) id
          obtain ⟨i1, i2, i3⟩ := hb
          have i1' : 0 < s * b.dt.val := hδ.trans_le i1
          rw [less_dir hs i1'] at hc
          have hd : 0 < s * (next.val - b.time.val) := hρ.rnd_pos (heps.trans_lt hc)
          obtain ⟨c1, -, -⟩ := step_to_end hρ hs i2 hn hd
          unfold timesControlledBody
          set cdt := (TimeArith.rounded ρ eps).minAbs b.dt ((TimeArith.rounded ρ eps).sub next b.time) with hcdt
          have hcase : δ ≤ s * cdt.val ∨ s * (next.val - b.time.val) ≤ s * cdt.val ∨ cdt = next - b.time := by
            rcases minAbs_dir hs (eps := eps) (a := b.dt) (b := (TimeArith.rounded ρ eps).sub next b.time) i1' with ⟨g, -⟩ | ⟨g, -⟩
            · left
              rw [hcdt, g]
              exact i1
            · right; right
              exact g
          have hpos : 0 < s * cdt.val := by
            rcases hcase with g | g | g
            · linarith
            · linarith
            · rw [g]; linarith
          refine Res.Sat.bind ((hst _ _ _ _ _ hpos).mono (fun r w' hr => ?_) (fun _ _ _ => trivial) id)
          by_cases hsuc : r.success = true
          · rw [if_pos hsuc] at hr ⊢
            obtain ⟨p1, -, p3⟩ := step_progress hρ hs (t0 := t) (r := r.dt) i2 hn hδ (hl.pair hρ (by simp) (by simp)) i3 hd hcase le_rfl (min_le_left _ _)
              hr.2
            have e : r.t = b.time + cdt := hr.1
            have := countdown_lt (progress_pos hδ next) hd p3
            refine ⟨⟨i1.trans (maxAbs_dir hs i1'), by dsimp only; rw [e]; exact hρ.add_isNumber _ _, by dsimp only; rw [e]; exact i3.trans p1⟩, ?_⟩
            dsimp only
            rw [e]
            omega
          · rw [if_neg hsuc] at hr ⊢
            refine Res.Sat.bind ?_
            unfold failedStepChecker
            by_cases hf : b.fails ≥ defaultMaxSteps
            · rw [if_pos hf]; trivial
            · rw [if_neg hf]
              have hf' : b.fails < 500 := by unfold defaultMaxSteps at hf; omega
              have e : r.t = b.time := hr.1
              refine ⟨⟨hr.2.2, by dsimp only; rw [e]; exact i2, by dsimp only; rw [e]; exact i3⟩, ?_⟩
              dsimp only
              rw [e]
              omega
        · exact ih (by simp) (fun t' ht' => hl t' (by simp at ht' ⊢; tauto)) b w2 hb
  exact loop times hne htimes _ w (by rw [hsabs]; exact hδdt)

/-- **C73** for `integrate_times` with a dense output stepper and a monotone sequence of times. -/
theorem times_dense_ends (hρ : ρ.Floating) {st : DenseStepper Q W S (Fl ρ)} {obs : Observer W S (Fl ρ)} (hobs : ∀ x t w, (obs x t w).Ends)
    (hcalc : ∀ q t w, (st.calcState q t w).Ends) {eps t0 dt : Fl ρ} {rest : List (Fl ρ)} {δ : ℝ} (heps : 0 ≤ eps.val) (hδ : 0 < δ) (hδdt : δ ≤ |dt.val|)
    (hst : DenseStepsAtLeast st dt.dir δ) (hmono : (t0 :: rest).Pairwise fun a b => dt.dir * a.val ≤ dt.dir * b.val)
    (htimes : ResolvesTimes ρ δ (t0 :: rest)) (q : Q) (x : S) (w : W) :
    (integrateTimesDense (.rounded ρ eps) st obs q x (t0 :: rest) dt w).Ends := by
  have hdt : dt.val ≠ 0 := fun h => by rw [h, abs_zero] at hδdt; linarith
  set s := dt.dir with hsdef
  have hs : s = 1 ∨ s = -1 := dt.dir_cases
  have hsdt : 0 < s * dt.val := dir_pos hdt
  have hsabs : s * dt.val = |dt.val| := by rw [← dir_abs hs, abs_of_pos hsdt]
  set last := rest.getLastD t0 with hlast
  have hlm : last ∈ t0 :: rest := getLastD_mem_cons _ _
  have hln := (htimes last hlm).1
  have hδu := htimes.pair hρ (a := t0) (by simp) hlm
  have hle : ∀ τ ∈ rest, s * τ.val ≤ s * last.val := fun τ hτ =>
    getLastD_rel (R := fun a b => s * a.val ≤ s * b.val) (fun _ => le_rfl) t0 (List.pairwise_cons.1 hmono).2 hτ
  set I : DenseTimesState Q S (Fl ρ) → Prop := fun a => (st.curTime a.q).IsNumber ∧ s * t0.val ≤ s * (st.curTime a.q).val ∧ 0 < s * (st.curDt a.q).val ∧
    (δ ≤ s * (st.curDt a.q).val ∨ s * (last.val - (st.curTime a.q).val) ≤ s * (st.curDt a.q).val) ∧ ∀ τ ∈ a.rest, τ ∈ rest with hI
  unfold integrateTimesDense
  dsimp only
  refine Res.Sat.bind ((hst.init q x t0 dt w).mono (fun q0 w0 hq0 => ?_) (fun _ _ _ => trivial) id)
  refine Res.Sat.bind ((hobs _ _ _).mono (fun _ w1 _ => ?_) (fun _ _ _ => trivial) id)
  refine Res.Sat.bind ((whileM_sat_total (E := fun _ _ => True) (D := False) (fun a _ => I a)
    (fun a _ => if a.rest = [] then 0 else countdown (progress δ last) (s * (last.val - (st.curTime a.q).val)) + 1) (fun a w ha hc => ?_) (?_ : I ⟨q0, x, rest, 0⟩)).mono
    (fun _ _ _ => trivial) (fun _ _ _ => trivial) id)
  · unfold denseTimesBody
    have hne : a.rest ≠ [] := by
      intro h
      rw [h] at hc
      simp at hc
    -- the observations
    refine Res.Sat.bind ((whileM_sat_total (E := fun _ _ => True) (D := False) (fun b _ => b.q = a.q ∧ ∀ τ ∈ b.rest, τ ∈ rest) (fun b _ => b.rest.length)
      (fun b w hb hcb => ?_) ⟨rfl, ha.2.2.2.2⟩).mono (fun b w2 hb => ?_) (fun _ _ _ => trivial) id)
    · unfold denseTimesObserve
      cases hrest : b.rest with
      | nil => rw [hrest] at hcb; simp [headLessEq] at hcb
      | cons τ l =>
        dsimp only
        refine Res.Sat.bind ((hcalc _ _ _).mono (fun y w3 _ => ?_) (fun _ _ _ => trivial) id)
        refine Res.Sat.bind ((hobs _ _ _).mono (fun _ w4 _ => ?_) (fun _ _ _ => trivial) id)
        refine ⟨⟨hb.1, fun σ hσ => hb.2 σ (by rw [hrest]; exact List.mem_cons_of_mem _ hσ)⟩, ?_⟩
        simp
    · obtain ⟨⟨b1, b2⟩, b3⟩ := hb
      obtain ⟨i1, i2, i3, i4, i5⟩ := ha
      rw [if_neg hne]
      -- a step from the current point, with step size `dtc`
      have move : ∀ (q1 : Q) w, st.curTime q1 = st.curTime a.q →
          (0 < s * (last.val - (st.curTime a.q).val) → δ ≤ s * (st.curDt q1).val ∨ s * (last.val - (st.curTime a.q).val) ≤ s * (st.curDt q1).val ∨
            st.curDt q1 = last - st.curTime a.q) → 0 < s * (st.curDt q1).val → (b.rest ≠ [] → 0 < s * (last.val - (st.curTime a.q).val)) →
          ((st.doStep q1 >>= fun q' => pure { b with q := q', count := b.count + 1 } : M W _) w).Sat
            (fun c _ => I c ∧ (if c.rest = [] then 0 else countdown (progress δ last) (s * (last.val - (st.curTime c.q).val)) + 1) <
              countdown (progress δ last) (s * (last.val - (st.curTime a.q).val)) + 1) (fun _ _ => True) False := by
        intro q1 w e1 e2 e3 e4
        refine Res.Sat.bind ((hst.step q1 w e3).mono (fun q' w' hq' => ?_) (fun _ _ _ => trivial) id)
        obtain ⟨⟨h, f1, f2, f3⟩, f4⟩ := hq'
        rw [e1] at f1
        by_cases hd : 0 < s * (last.val - (st.curTime a.q).val)
        · obtain ⟨p1, p2, p3⟩ := step_progress hρ hs (t0 := t0) (t1 := last) (r := st.curDt q') i1 hln hδ hδu i2 hd (e2 hd) f2 f3 f4
          rw [← f1] at p1 p2 p3
          refine ⟨⟨by dsimp only; rw [f1]; exact hρ.add_isNumber _ _, i2.trans p1, (lt_min e3 hδ).trans_le f4, p2, b2⟩, ?_⟩
          have := countdown_lt (progress_pos hδ last) hd p3
          dsimp only
          split <;> omega
        · have hrest : b.rest = [] := by
            by_contra g
            exact hd (e4 g)
          have p1 : s * (st.curTime a.q).val ≤ s * (st.curTime q').val := by
            rw [f1, Fl.val_add]
            have := hρ.mono_dir hs (a := (st.curTime a.q).val) (b := (st.curTime a.q).val + h.val)
              (by rw [mul_add]; linarith [(lt_min e3 hδ).trans_le f3])
            rwa [i1] at this
          have p4 := (lt_min e3 hδ).trans_le f4
          refine ⟨⟨by dsimp only; rw [f1]; exact hρ.add_isNumber _ _, i2.trans p1, p4, .inr ?_, b2⟩, ?_⟩
          · dsimp only
            rw [not_lt, mul_sub] at hd
            rw [mul_sub]
            linarith
          · dsimp only
            rw [if_pos hrest]
            omega
      have hd : b.rest ≠ [] → 0 < s * (last.val - (st.curTime a.q).val) := by
        intro hbr
        cases hrest : b.rest with
        | nil => exact absurd hrest hbr
        | cons τ l =>
          rw [hrest, b1] at b3
          unfold headLessEq at b3
          rw [← Bool.not_eq_true, lessEq_dir hs i3, not_le] at b3
          have := hρ.rnd_pos (heps.trans_lt b3)
          have := hle τ (b2 τ (by rw [hrest]; simp))
          rw [mul_sub] at *
          linarith
      by_cases hc1 : (TimeArith.rounded ρ eps).lessEqWithSign ((TimeArith.rounded ρ eps).add (st.curTime b.q) (st.curDt b.q)) last (st.curDt b.q) = true
      · rw [if_pos hc1]
        exact move b.q w2 (by rw [b1]) (fun _ => by rw [b1]; rcases i4 with g | g <;> tauto) (by rw [b1]; exact i3) hd
      · rw [if_neg hc1]
        by_cases hbr : b.rest = []
        · rw [hbr]
          simp only [List.isEmpty_nil, Bool.not_true, Bool.false_eq_true, if_false]
          refine ⟨⟨by rw [b1]; exact i1, by rw [b1]; exact i2, by rw [b1]; exact i3, by rw [b1]; exact i4, b2⟩, ?_⟩
          rw [if_pos hbr]
          omega
        · have hemp : (!b.rest.isEmpty) = true := by simp [hbr]
          rw [if_pos hemp]
          have hd' := hd hbr
          obtain ⟨c1, -, -⟩ := step_to_end hρ hs i1 hln hd'
          refine Res.Sat.bind ((hst.init _ _ _ _ _).mono (fun q1 w3 hq1 => ?_) (fun _ _ _ => trivial) id)
          have e2 : st.curDt q1 = last - st.curTime a.q := by rw [hq1.2, b1]; rfl
          refine move q1 w3 (by rw [hq1.1, b1]) (fun _ => .inr (.inr e2)) (by rw [e2]; linarith) hd
  · refine ⟨by dsimp only; rw [hq0.1]; exact (htimes t0 (by simp)).1, by dsimp only; rw [hq0.1], by dsimp only; rw [hq0.2]; exact hsdt,
      .inl (by dsimp only; rw [hq0.2, hsabs]; exact hδdt), fun τ h => h⟩

/-! ## Cases: `-1.3` to `7`, where `integrate_adaptive` with dense output does not end (`adaptive_dense_hangs`) -/

section Cases

theorem startTime_resolved {δ : ℝ} (hδ : 1 / 8 ≤ δ) : ResolvesTimes double δ [startTime, .of 7] := by
  intro t ht
  have hu : double.u = (2 : ℝ) ^ (-(53 : ℤ)) := rfl
  rw [hu]
  simp only [List.mem_cons, List.not_mem_nil, or_false] at ht
  rcases ht with rfl | rfl
  · refine ⟨startTime_isNumber, ?_⟩
    have e : |startTime.val| ≤ 2 := by
      change |(-5854679515581645 / 2 ^ 52 : ℝ)| ≤ 2
      rw [abs_le]
      constructor <;> norm_num
    refine le_trans (mul_le_mul_of_nonneg_left e (by positivity)) (le_trans ?_ hδ)
    norm_num
  · have := double_number 7 0 (by norm_num)
    refine ⟨by simpa using this, le_trans ?_ hδ⟩
    change 4 * (2 : ℝ) ^ (-(53 : ℤ)) * |7| ≤ _
    norm_num

theorem doubleEps_nonneg : 0 ≤ doubleEps.val := by
  change (0 : ℝ) ≤ 2 ^ (-52 : ℤ)
  positivity

example : (integrateTimesBasic (.rounded double doubleEps) (⟨fun _ x _ _ => pure ((), x)⟩ : BasicStepper Unit Unit Unit (Fl double)) nullObserver () ()
    [startTime, .of 7] (.of (1 / 8)) ()).Ends := by
  refine times_basic_ends (binaryFormat_floating (by norm_num)) (fun _ _ _ _ _ => by exact True.intro) (fun _ _ _ => by exact True.intro) doubleEps_nonneg ?_
    (by simp) (startTime_resolved ?_) () () ()
  · change (1 / 8 : ℝ) ≠ 0
    norm_num
  · change (1 / 8 : ℝ) ≤ |1 / 8|
    norm_num

example : (integrateTimesControlled (.rounded double doubleEps) quarterStepper nullObserver () () [startTime, .of 7] (.of 1) ()).Ends := by
  refine times_controlled_ends (δ := 1 / 4) (binaryFormat_floating (by norm_num)) (fun _ _ _ => by exact True.intro) doubleEps_nonneg ?_ (by norm_num) ?_
    (by rw [one_dir]; exact quarterStepper_steps) (by simp) (startTime_resolved (by norm_num)) () () ()
  · exact one_ne_zero
  · change (1 / 4 : ℝ) ≤ |1|
    norm_num

example : (integrateTimesDense (.rounded double doubleEps) quarterDense nullObserver (.of 0, .of 0) () [startTime, .of 7] (.of 10) ()).Ends := by
  have hdir : (Fl.of 10 : Fl double).dir = 1 := if_pos (by change (0 : ℝ) < 10; norm_num)
  refine times_dense_ends (δ := 1 / 4) (binaryFormat_floating (by norm_num)) (fun _ _ _ => by exact True.intro) (fun _ _ _ => by exact True.intro) doubleEps_nonneg
    (by norm_num) ?_ (by rw [hdir]; exact quarterDense_steps) ?_ (startTime_resolved (by norm_num)) _ () ()
  · change (1 / 4 : ℝ) ≤ |10|
    norm_num
  · simp only [List.pairwise_cons, List.mem_singleton, forall_eq, List.not_mem_nil, IsEmpty.forall_iff, implies_true, List.Pairwise.nil, and_true]
    rw [hdir]
    change 1 * (-5854679515581645 / 2 ^ 52 : ℝ) ≤ 1 * 7
    norm_num

end Cases

end Verif
