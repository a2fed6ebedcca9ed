import Verif.Lemmas.Interval

/-! # Controlled steppers and dense output steppers whose steps agree -/

namespace Verif
variable {K V W Q S α β σ : Type}

section
variable [Field K] [LinearOrder K]

/-- the tries of the two steppers agree inside `I` -/
def TriesAgree (I : Set K) (st st' : ControlledStepper Q W S K) : Prop :=
  ∀ q x t dt, duringStep t dt ⊆ I → st.tryStep q x t dt = st'.tryStep q x t dt

/-- time and step size after a try, for steps in the direction of `dt` -/
def TriesForward (dt : K) (st : ControlledStepper Q W S K) : Prop :=
  ∀ q x t d w r w', st.tryStep q x t d w = .ok r w' → SameDir dt d →
    SameDir dt r.dt ∧ (r.success = true → r.t = t + d) ∧ (r.success = false → r.t = t ∧ |r.dt| ≤ |d|)

/-- the same for the states of the stepper with `Ok`, which is an invariant -/
def TriesForwardOn (Ok : Q → Prop) (dt : K) (st : ControlledStepper Q W S K) : Prop :=
  ∀ q x t d w r w', Ok q → st.tryStep q x t d w = .ok r w' → SameDir dt d →
    Ok r.q ∧ SameDir dt r.dt ∧ (r.success = true → r.t = t + d) ∧ (r.success = false → r.t = t ∧ |r.dt| ≤ |d|)

theorem TriesForward.on {dt : K} {st : ControlledStepper Q W S K} (h : TriesForward dt st) : TriesForwardOn (fun _ => True) dt st :=
  fun q x t d w r w' _ e hd => ⟨trivial, h q x t d w r w' e hd⟩

theorem TriesAgree.mono {I J : Set K} {st st' : ControlledStepper Q W S K} (h : TriesAgree I st st') (hJ : J ⊆ I) : TriesAgree J st st' :=
  fun q x t dt hs => h q x t dt (hs.trans hJ)

theorem SameDir.pos_iff {a b : K} (h : SameDir a b) : 0 < b ↔ 0 < a := by
  rcases h with h | h
  · exact iff_of_true h.2 h.1
  · exact iff_of_false (not_lt.2 h.2.le) (not_lt.2 h.1.le)

variable [IsStrictOrderedRing K] {Ok : Q → Prop} {eps : K} {st st' : ControlledStepper Q W S K} {obs : Observer W S K}

theorem failedStepChecker_ok {m c n : ℕ} {w w' : W} (h : failedStepChecker m c w = .ok n w') : w' = w := by
  unfold failedStepChecker at h
  split at h <;> cases h
  rfl

/-- a shorter step in the same direction -/
theorem duringStep_shorter {dt d d' t : K} (h : SameDir dt d) (h' : SameDir dt d') (hle : |d'| ≤ |d|) : duringStep t d' ⊆ duringStep t d := by
  refine Set.uIcc_subset_uIcc Set.left_mem_uIcc ?_
  rw [Set.mem_uIcc]
  rcases h with h | h <;> rcases h' with h' | h'
  · rw [abs_of_pos h.2, abs_of_pos h'.2] at hle; left; constructor <;> linarith [h.2, h'.2]
  · linarith [h.1, h'.1]
  · linarith [h.1, h'.1]
  · rw [abs_of_neg h.2, abs_of_neg h'.2] at hle; right; constructor <;> linarith [h.2, h'.2]

theorem retryBody_agree {I : Set K} (h : TriesAgree I st st') (s : AdaptState Q S K) (hs : duringStep s.t s.dt ⊆ I) :
    retryBody st s = retryBody st' s := by
  unfold retryBody
  rw [h _ _ _ _ hs]

theorem retryBody_forward {dt : K} (hf : TriesForwardOn Ok dt st) (s s' : AdaptState Q S K) (w w' : W) (hq : Ok s.q) (hd : SameDir dt s.dt)
    (hb : retryBody st s w = .ok s' w') :
    Ok s'.q ∧ SameDir dt s'.dt ∧ (s'.success = true → s'.t = s.t + s.dt) ∧ (s'.success = false → s'.t = s.t ∧ |s'.dt| ≤ |s.dt|) := by
  obtain ⟨r, w₁, h1, hb⟩ := bind_ok_inv hb
  obtain ⟨c, w₂, -, hb⟩ := bind_ok_inv hb
  cases hb
  exact hf _ _ _ _ _ _ _ hq h1 hd

/-- the invariant of the retry loop that starts at `t` with step size `d` -/
def RetryInv (Ok : Q → Prop) (dt t d : K) (s : AdaptState Q S K) : Prop :=
  Ok s.q ∧ SameDir dt s.dt ∧ (s.success = true → s.t ∈ duringStep t d) ∧ (s.success = false → s.t = t ∧ |s.dt| ≤ |d|)

theorem RetryInv.body {dt t d : K} (hf : TriesForwardOn Ok dt st) (hd : SameDir dt d) {s s' : AdaptState Q S K} {w w' : W} (hs : RetryInv Ok dt t d s)
    (hc : s.success = false) (hb : retryBody st s w = .ok s' w') : RetryInv Ok dt t d s' := by
  obtain ⟨h0, h1, h2, h3⟩ := retryBody_forward hf s s' w w' hs.1 hs.2.1 hb
  obtain ⟨e, hle⟩ := hs.2.2.2 hc
  refine ⟨h0, h1, fun h => ?_, fun h => ⟨(h3 h).1.trans e, (h3 h).2.trans hle⟩⟩
  rw [h2 h, e]
  exact duringStep_shorter hd hs.2.1 hle (end_mem _ _)

theorem retryLoop_agree {dt : K} {I : Set K} (h : TriesAgree I st st') (hf : TriesForwardOn Ok dt st) (s : AdaptState Q S K) (hq : Ok s.q)
    (hd : SameDir dt s.dt) (hs : duringStep s.t s.dt ⊆ I) : retryLoop st s = retryLoop st' s := by
  unfold retryLoop
  funext w
  refine bind_congr_ok (by rw [retryBody_agree h s hs]) fun s₁ w₁ h1 => ?_
  have inv : RetryInv Ok dt s.t s.dt s₁ := by
    obtain ⟨h0, h1, h2, h3⟩ := retryBody_forward hf s s₁ w w₁ hq hd h1
    exact ⟨h0, h1, fun h => by rw [h2 h]; exact end_mem _ _, h3⟩
  refine congrFun (whileM_congr (RetryInv Ok dt s.t s.dt) ?_ ?_ inv) w₁
  · intro s' w' hs' hc
    obtain ⟨e, hle⟩ := hs'.2.2.2 (by simpa using hc)
    rw [retryBody_agree h s' (by rw [e]; exact (duringStep_shorter hd hs'.2.1 hle).trans hs)]
  · intro s' w' s'' w'' hs' hc hb
    exact hs'.body hf hd (by simpa using hc) hb

theorem retryLoop_ok {dt : K} (hf : TriesForwardOn Ok dt st) (s s' : AdaptState Q S K) (w w' : W) (hq : Ok s.q) (hd : SameDir dt s.dt)
    (h : retryLoop st s w = .ok s' w') : Ok s'.q ∧ SameDir dt s'.dt ∧ s'.t ∈ duringStep s.t s.dt := by
  obtain ⟨s₁, w₁, h1, h2⟩ := bind_ok_inv h
  have inv : RetryInv Ok dt s.t s.dt s₁ := by
    obtain ⟨h0, h1, h2, h3⟩ := retryBody_forward hf s s₁ w w₁ hq hd h1
    exact ⟨h0, h1, fun h => by rw [h2 h]; exact end_mem _ _, h3⟩
  obtain ⟨h3, h4⟩ := whileM_ok_inv (RetryInv Ok dt s.t s.dt) (fun s' w' s'' w'' hs' hc hb => hs'.body hf hd (by simpa using hc) hb) inv h2
  exact ⟨h3.1, h3.2.1, h3.2.2.1 (by simpa using h4)⟩

/-- a step of `integrate_adaptive` stays inside -/
theorem clip_inside {dt t0 t1 t d : K} (heps : 0 ≤ eps) (hd : SameDir dt d) (ht : t ∈ during eps dt t0 t1)
    (hc : (TimeArith.exact K eps).lessWithSign t t1 d = true) :
    SameDir dt (clipDt (TimeArith.exact K eps) t t1 d) ∧ duringStep t (clipDt (TimeArith.exact K eps) t t1 d) ⊆ during eps dt t0 t1 := by
  simp only [clipDt, TimeArith.lessWithSign, TimeArith.exact] at hc ⊢
  unfold during at ht ⊢
  rcases hd with ⟨h1, h2⟩ | ⟨h1, h2⟩
  · simp only [decide_eq_true h2, if_true, decide_eq_true_eq] at hc ⊢
    rw [if_pos h1] at ht ⊢
    split
    · exact ⟨Or.inl ⟨h1, by linarith⟩, duringStep_subset ht ⟨by linarith [ht.1], by linarith⟩⟩
    · exact ⟨Or.inl ⟨h1, h2⟩, duringStep_subset ht ⟨by linarith [ht.1], by linarith⟩⟩
  · have n1 := not_lt.2 h1.le
    have n2 := not_lt.2 h2.le
    simp only [decide_eq_false n2, Bool.false_eq_true, if_false, decide_eq_true_eq] at hc ⊢
    rw [if_neg n1] at ht ⊢
    split
    · exact ⟨Or.inr ⟨h1, by linarith⟩, duringStep_subset ht ⟨by linarith, by linarith [ht.2]⟩⟩
    · exact ⟨Or.inr ⟨h1, h2⟩, duringStep_subset ht ⟨by linarith, by linarith [ht.2]⟩⟩

/-- the invariant of the loop of `integrate_adaptive`; before the first step the time may be behind the end -/
def AdaptInv (Ok : Q → Prop) (eps dt t0 t1 : K) (p : AdaptState Q S K × ℕ) : Prop :=
  Ok p.1.q ∧ SameDir dt p.1.dt ∧ (p.1.t = t0 ∨ p.1.t ∈ during eps dt t0 t1)

theorem AdaptInv.mem {dt t0 t1 : K} (heps : 0 ≤ eps) {p : AdaptState Q S K × ℕ} (hp : AdaptInv Ok eps dt t0 t1 p)
    (hc : (TimeArith.exact K eps).lessWithSign p.1.t t1 p.1.dt = true) : p.1.t ∈ during eps dt t0 t1 := by
  rcases hp.2.2 with h | h
  · simp only [TimeArith.lessWithSign, TimeArith.exact] at hc
    unfold during
    rcases hp.2.1 with ⟨h1, h2⟩ | ⟨h1, h2⟩
    · simp only [decide_eq_true h2, if_true, decide_eq_true_eq] at hc
      rw [if_pos h1]
      exact ⟨h.ge, by linarith⟩
    · simp only [decide_eq_false (not_lt.2 h2.le), Bool.false_eq_true, if_false, decide_eq_true_eq] at hc
      rw [if_neg (not_lt.2 h1.le)]
      exact ⟨by linarith, h.le⟩
  · exact h

theorem AdaptInv.body {dt t0 t1 : K} (heps : 0 ≤ eps) (hf : TriesForwardOn Ok dt st) {p p' : AdaptState Q S K × ℕ} {w w' : W}
    (hp : AdaptInv Ok eps dt t0 t1 p) (hc : (TimeArith.exact K eps).lessWithSign p.1.t t1 p.1.dt = true)
    (hb : (do obs p.1.x p.1.t
              let s ← retryLoop st { p.1 with dt := clipDt (TimeArith.exact K eps) p.1.t t1 p.1.dt }
              return ({ s with fails := 0 }, p.2 + 1) : M W (AdaptState Q S K × ℕ)) w = .ok p' w') : AdaptInv Ok eps dt t0 t1 p' := by
  obtain ⟨_, w₁, -, hb⟩ := bind_ok_inv hb
  obtain ⟨s, w₂, h2, hb⟩ := bind_ok_inv hb
  cases hb
  have hm := clip_inside heps hp.2.1 (hp.mem heps hc) hc
  obtain ⟨h0, h3, h4⟩ := retryLoop_ok hf { p.1 with dt := clipDt (TimeArith.exact K eps) p.1.t t1 p.1.dt } _ _ _ hp.1 hm.1 h2
  exact ⟨h0, h3, Or.inr (hm.2 h4)⟩

theorem integrateAdaptiveControlled_agree {dt t0 t1 d : K} (heps : 0 ≤ eps) (h : TriesAgree (during eps dt t0 t1) st st') (hf : TriesForwardOn Ok dt st)
    (hd : SameDir dt d) {q : Q} (hq : Ok q) (x : S) :
    integrateAdaptiveControlled (TimeArith.exact K eps) st obs q x t0 t1 d = integrateAdaptiveControlled (TimeArith.exact K eps) st' obs q x t0 t1 d := by
  unfold integrateAdaptiveControlled
  congr 1
  refine whileM_congr (AdaptInv Ok eps dt t0 t1) ?_ ?_ ⟨hq, hd, Or.inl rfl⟩
  · intro p w hp hc
    have hm := clip_inside heps hp.2.1 (hp.mem heps hc) hc
    rw [retryLoop_agree h hf { p.1 with dt := clipDt (TimeArith.exact K eps) p.1.t t1 p.1.dt } hp.1 hm.1 hm.2]
  · intro p w p' w' hp hc hb
    exact hp.body heps hf hc hb

theorem integrateAdaptiveControlled_dir {dt t0 t1 d : K} (heps : 0 ≤ eps) (hf : TriesForwardOn Ok dt st) (hd : SameDir dt d) {q : Q} (hq : Ok q) {x : S} {w w' : W}
    {r : AdaptResult S K} (h : integrateAdaptiveControlled (TimeArith.exact K eps) st obs q x t0 t1 d w = .ok r w') : SameDir dt r.dt := by
  obtain ⟨p, w₁, h1, h2⟩ := bind_ok_inv h
  obtain ⟨_, w₂, -, h3⟩ := bind_ok_inv h2
  cases h3
  exact (whileM_ok_inv (AdaptInv Ok eps dt t0 t1) (fun p w p' w' hp hc hb => hp.body heps hf hc hb) ⟨hq, hd, Or.inl rfl⟩ h1).1.2.1

theorem during_grid {dt t0 : K} (heps : 0 ≤ eps) (hd : dt ≠ 0) {i n : ℕ} (h : i < n) :
    during eps dt (t0 + i * dt) (t0 + i * dt + dt) ⊆ during eps dt t0 (t0 + n * dt) := by
  have hi : (i : K) + 1 ≤ n := by exact_mod_cast h
  have h0 : (0 : K) ≤ i := Nat.cast_nonneg i
  unfold during
  split
  · exact Set.Icc_subset_Icc (by nlinarith) (by nlinarith)
  · have : dt ≤ 0 := not_lt.1 ‹_›
    exact Set.Icc_subset_Icc (by nlinarith) (by nlinarith)

theorem nStepsControlledLoop_agree {dt t0 : K} {N : ℕ} (heps : 0 ≤ eps) (h : TriesAgree (during eps dt t0 (t0 + N * dt)) st st')
    (hf : TriesForwardOn Ok dt st) (hd0 : dt ≠ 0) {q : Q} (hq : Ok q) : ∀ (k i : ℕ) (x : S) (t d : K), i + k ≤ N → t = t0 + i * dt → SameDir dt d →
      nStepsControlledLoop (TimeArith.exact K eps) st obs q t0 dt k i x t d = nStepsControlledLoop (TimeArith.exact K eps) st' obs q t0 dt k i x t d := by
  intro k
  induction k with
  | zero => intro i x t d _ _ _; rfl
  | succ k ih =>
    intro i x t d hi ht hd
    simp only [nStepsControlledLoop]
    congr 1; funext _ w
    have e : integrateAdaptiveControlled (TimeArith.exact K eps) st nullObserver q x t ((TimeArith.exact K eps).add t dt) d =
        integrateAdaptiveControlled (TimeArith.exact K eps) st' nullObserver q x t ((TimeArith.exact K eps).add t dt) d := by
      refine integrateAdaptiveControlled_agree heps (h.mono ?_) hf hd hq x
      rw [ht]
      exact during_grid heps hd0 (by omega)
    refine bind_congr_ok (by rw [e]) fun r w' hr => ?_
    rw [ih (i + 1) _ _ _ (by omega) (by simp [TimeArith.exact]) (integrateAdaptiveControlled_dir heps hf hd hq hr)]

theorem integrateNStepsControlled_agree {dt t0 : K} {n : ℕ} (heps : 0 ≤ eps) (h : TriesAgree (during eps dt t0 (t0 + n * dt)) st st')
    (hf : TriesForwardOn Ok dt st) (hd0 : dt ≠ 0) {q : Q} (hq : Ok q) (x : S) :
    integrateNStepsControlled (TimeArith.exact K eps) st obs q x t0 dt n = integrateNStepsControlled (TimeArith.exact K eps) st' obs q x t0 dt n := by
  unfold integrateNStepsControlled
  have : SameDir dt dt := by rcases lt_or_gt_of_ne hd0 with h | h; exacts [Or.inr ⟨h, h⟩, Or.inl ⟨h, h⟩]
  rw [nStepsControlledLoop_agree heps h hf hd0 hq n 0 x t0 dt (by omega) (by simp) this]

theorem integrateConstControlled_agree {dt t0 t1 : K} (heps : 0 ≤ eps) (h : TriesAgree (during (2 * eps) dt t0 t1) st st')
    (hf : TriesForwardOn Ok dt st) (hd0 : dt ≠ 0) {q : Q} (hq : Ok q) (x : S) :
    integrateConstControlled (TimeArith.exact K eps) st obs q x t0 t1 dt = integrateConstControlled (TimeArith.exact K eps) st' obs q x t0 t1 dt := by
  have hdd : SameDir dt dt := by rcases lt_or_gt_of_ne hd0 with h | h; exacts [Or.inr ⟨h, h⟩, Or.inl ⟨h, h⟩]
  unfold integrateConstControlled
  congr 1
  refine whileM_congr (fun s : CtrlState S K => s.time = t0 + s.step * dt ∧ SameDir dt s.dt) ?_ ?_ ⟨by simp, hdd⟩
  · rintro s w ⟨hs, hsd⟩ hc
    have e : integrateAdaptiveControlled (TimeArith.exact K eps) st nullObserver q s.x s.time ((TimeArith.exact K eps).add s.time dt) s.dt =
        integrateAdaptiveControlled (TimeArith.exact K eps) st' nullObserver q s.x s.time ((TimeArith.exact K eps).add s.time dt) s.dt := by
      refine integrateAdaptiveControlled_agree heps (h.mono ?_) hf hsd hq s.x
      have hj0 : (0 : K) ≤ s.step := Nat.cast_nonneg _
      simp only [TimeArith.lessEqWithSign, TimeArith.exact] at hc ⊢
      unfold during
      rcases hsd with ⟨h1, h2⟩ | ⟨h1, h2⟩
      · simp only [decide_eq_true h2, if_true, decide_eq_true_eq] at hc
        rw [if_pos h1, if_pos h1]
        exact Set.Icc_subset_Icc (by rw [hs]; nlinarith) (by linarith)
      · simp only [decide_eq_false (not_lt.2 h2.le), Bool.false_eq_true, if_false, decide_eq_true_eq] at hc
        rw [if_neg (not_lt.2 h1.le), if_neg (not_lt.2 h1.le)]
        exact Set.Icc_subset_Icc (by linarith) (by rw [hs]; nlinarith)
    rw [e]
  · rintro s w s' w' ⟨hs, hsd⟩ hc hb
    obtain ⟨_, w₁, -, hb⟩ := bind_ok_inv hb
    obtain ⟨r, w₂, hr, hb⟩ := bind_ok_inv hb
    cases hb
    exact ⟨by simp [TimeArith.exact], integrateAdaptiveControlled_dir heps hf hsd hq hr⟩

/-! ### `integrate_times` -/

theorem minAbs_inside {dt t next s d : K} (heps : 0 ≤ eps) (hd : SameDir dt d) (hm : s ∈ Set.uIcc t next)
    (hc : (TimeArith.exact K eps).lessWithSign s next d = true) :
    SameDir dt ((TimeArith.exact K eps).minAbs d (next - s)) ∧ duringStep s ((TimeArith.exact K eps).minAbs d (next - s)) ⊆ Set.uIcc t next := by
  suffices SameDir dt ((TimeArith.exact K eps).minAbs d (next - s)) ∧ s + (TimeArith.exact K eps).minAbs d (next - s) ∈ Set.uIcc t next from
    ⟨this.1, Set.uIcc_subset_uIcc hm this.2⟩
  simp only [TimeArith.lessWithSign, TimeArith.exact, TimeArith.minAbs, TimeArith.stdMin, TimeArith.stdMax] at hc ⊢
  rw [Set.mem_uIcc] at hm ⊢
  rcases hd with ⟨h1, h2⟩ | ⟨h1, h2⟩
  · simp only [decide_eq_true h2, if_true, decide_eq_true_eq] at hc ⊢
    split
    · refine ⟨Or.inl ⟨h1, by linarith⟩, ?_⟩
      rcases hm with hm | hm
      · left; constructor <;> linarith [hm.1, hm.2]
      · linarith [hm.1, hm.2]
    · refine ⟨Or.inl ⟨h1, h2⟩, ?_⟩
      rcases hm with hm | hm
      · left; constructor <;> linarith [hm.1, hm.2]
      · linarith [hm.1, hm.2]
  · simp only [decide_eq_false (not_lt.2 h2.le), Bool.false_eq_true, if_false, decide_eq_true_eq] at hc ⊢
    split
    · refine ⟨Or.inr ⟨h1, by linarith⟩, ?_⟩
      rcases hm with hm | hm
      · linarith [hm.1, hm.2]
      · right; constructor <;> linarith [hm.1, hm.2]
    · refine ⟨Or.inr ⟨h1, h2⟩, ?_⟩
      rcases hm with hm | hm
      · linarith [hm.1, hm.2]
      · right; constructor <;> linarith [hm.1, hm.2]

theorem SameDir.maxAbs {dt a b : K} (ha : SameDir dt a) (hb : SameDir dt b) : SameDir dt ((TimeArith.exact K eps).maxAbs a b) := by
  unfold TimeArith.maxAbs TimeArith.stdMax TimeArith.stdMin
  split <;> split <;> assumption

/-- the invariant of the inner loop of `integrate_times` -/
def TimesInv (Ok : Q → Prop) (dt t next : K) (s : TimesState Q S K) : Prop := Ok s.q ∧ SameDir dt s.dt ∧ s.time ∈ Set.uIcc t next

theorem TimesInv.body {dt t next : K} (heps : 0 ≤ eps) (hf : TriesForwardOn Ok dt st) {s s' : TimesState Q S K} {w w' : W} (hs : TimesInv Ok dt t next s)
    (hc : (TimeArith.exact K eps).lessWithSign s.time next s.dt = true)
    (hb : timesControlledBody (TimeArith.exact K eps) st next s w = .ok s' w') : TimesInv Ok dt t next s' := by
  have hm := minAbs_inside heps hs.2.1 hs.2.2 hc
  obtain ⟨r, w₁, hr, hb⟩ := bind_ok_inv hb
  obtain ⟨h0, h1, h2, h3⟩ := hf _ _ _ _ _ _ _ hs.1 hr hm.1
  split at hb
  · rename_i hsu
    cases hb
    refine ⟨h0, hs.2.1.maxAbs h1, hm.2 ?_⟩
    rw [h2 hsu]
    exact end_mem _ _
  · rename_i hsu
    obtain ⟨c, w₂, -, hb⟩ := bind_ok_inv hb
    cases hb
    refine ⟨h0, h1, ?_⟩
    rw [(h3 (by simpa using hsu)).1]
    exact hs.2.2

theorem timesControlledInner_agree {dt t next : K} {I : Set K} (heps : 0 ≤ eps) (hI : Set.uIcc t next ⊆ I) (h : TriesAgree I st st')
    (hf : TriesForwardOn Ok dt st) (s : TimesState Q S K) (hs : TimesInv Ok dt t next s) :
    timesControlledInner (TimeArith.exact K eps) st next s = timesControlledInner (TimeArith.exact K eps) st' next s := by
  unfold timesControlledInner
  refine whileM_congr (TimesInv Ok dt t next) ?_ ?_ hs
  · intro s w hs hc
    have hm := minAbs_inside heps hs.2.1 hs.2.2 hc
    have e := h s.q s.x s.time ((TimeArith.exact K eps).minAbs s.dt (next - s.time)) (hm.2.trans hI)
    unfold timesControlledBody
    rw [show (TimeArith.exact K eps).sub next s.time = next - s.time from rfl, e]
  · intro s w s' w' hs hc hb
    exact hs.body heps hf hc hb

theorem timesControlledLoop_agree {dt : K} (heps : 0 ≤ eps) {all : List K} (h : TriesAgree (duringTimes all) st st') (hf : TriesForwardOn Ok dt st) :
    ∀ (times : List K), (∀ t ∈ times, t ∈ all) → ∀ (s : TimesState Q S K), Ok s.q → SameDir dt s.dt →
      timesControlledLoop (TimeArith.exact K eps) st obs times s = timesControlledLoop (TimeArith.exact K eps) st' obs times s := by
  intro times
  induction times with
  | nil => intro _ _ _ _; rfl
  | cons t times ih =>
    intro hall s hq hd
    cases times with
    | nil => rfl
    | cons next rest =>
      simp only [timesControlledLoop]
      congr 1; funext _
      have inv : TimesInv Ok dt t next { s with time := t } := ⟨hq, hd, Set.left_mem_uIcc⟩
      rw [timesControlledInner_agree heps (uIcc_subset_duringTimes (hall t (by simp)) (hall next (by simp))) h hf _ inv]
      funext w
      refine bind_congr_ok rfl fun s' w' hs' => ?_
      rw [← timesControlledInner_agree heps (uIcc_subset_duringTimes (hall t (by simp)) (hall next (by simp))) h hf _ inv] at hs'
      have inv' := (whileM_ok_inv (TimesInv Ok dt t next) (fun s w s' w' hs hc hb => hs.body heps hf hc hb) inv hs').1
      rw [ih (fun t ht => hall t (by simp [List.mem_cons.1 ht])) s' inv'.1 inv'.2.1]

theorem integrateTimesControlled_agree {dt : K} (heps : 0 ≤ eps) {times : List K} (h : TriesAgree (duringTimes times) st st')
    (hf : TriesForwardOn Ok dt st) (hd0 : dt ≠ 0) {q : Q} (hq : Ok q) (x : S) :
    integrateTimesControlled (TimeArith.exact K eps) st obs q x times dt = integrateTimesControlled (TimeArith.exact K eps) st' obs q x times dt := by
  have hdd : SameDir dt dt := by rcases lt_or_gt_of_ne hd0 with h | h; exacts [Or.inr ⟨h, h⟩, Or.inl ⟨h, h⟩]
  exact timesControlledLoop_agree heps h hf times (fun _ h => h) _ hq hdd

end
end Verif
