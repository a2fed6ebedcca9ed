import Verif.Lemmas.Mirror

/-!
# C13: backward integration is the mirror image of forward integration

Exact arithmetic, any tolerance `eps >= 0`, `dt != 0`.  `Res.image f Log.neg` is the outcome with all
recorded calls mirrored: the same observer states at the negated times, the same exceptions.
-/

namespace Verif
variable {Q S K : Type} [Field K] [LinearOrder K] [IsStrictOrderedRing K]

/-- **C13** (plain steppers), for arbitrary steppers. -/
theorem mirror_basic (eps : K) (heps : 0 ≤ eps) (step : Q → S → K → K → Except Err (Q × S))
    (q : Q) (x : S) (t0 t1 dt : K) (hdt : dt ≠ 0) (n : ℕ) (l : List K) (w : Log S K) :
    let A := TimeArith.exact K eps
    let st := loggedBasic step
    let st' := loggedBasic (mirrorStep step)
    integrateNStepsBasic A st' record q x (-t0) (-dt) n w.neg =
      (integrateNStepsBasic A st record q x t0 dt n w).image (fun r => (r.1, -r.2)) Log.neg ∧
    integrateConstBasic A st' record q x (-t0) (-t1) (-dt) w.neg =
      (integrateConstBasic A st record q x t0 t1 dt w).image id Log.neg ∧
    integrateAdaptiveBasic A st' record q x (-t0) (-t1) (-dt) w.neg =
      (integrateAdaptiveBasic A st record q x t0 t1 dt w).image id Log.neg ∧
    integrateTimesBasic A st' record q x (l.map (- ·)) (-dt) w.neg =
      (integrateTimesBasic A st record q x l dt w).image id Log.neg := by
  intro A st st'
  have hA := negTimeRel eps heps
  have hst := neg_basic_sim step
  have ho := neg_obs_sim' (Q := Q) (S := S) (K := K)
  have hJ : NegJ q q w w.neg := ⟨rfl, rfl⟩
  have hd : NegD dt (-dt) := ⟨hdt, rfl⟩
  have hl : List.Forall₂ NegT l (l.map (- ·)) := by
    rw [List.forall₂_map_right_iff]; exact List.forall₂_same.mpr fun _ _ => rfl
  refine ⟨image_eq ?_ (integrateNStepsBasic_sim hA hst ho n hJ rfl rfl hd),
    image_eq ?_ (integrateConstBasic_sim hA hst ho (fun _ _ => False)
      (fun _ _ _ _ _ _ h _ => h.elim) hJ rfl rfl rfl hd),
    image_eq ?_ (integrateAdaptiveBasic_sim hA hst ho (fun _ _ _ _ h => ⟨rfl, h.2⟩) hJ rfl rfl rfl
      hd), image_eq ?_ (integrateTimesBasic_sim hA hst ho hl hJ rfl hd)⟩
  · rintro ⟨_, _⟩ ⟨_, _⟩ p p' ⟨⟨_, _, _, h⟩, h1, h2⟩; exact ⟨Prod.ext h1.symm h2, h⟩
  · rintro ⟨_, _⟩ ⟨_, _⟩ p p' ⟨⟨_, _, _, h⟩, -, h1, h2⟩; exact ⟨Prod.ext h1.symm h2.symm, h⟩
  · rintro ⟨_, _⟩ ⟨_, _⟩ p p' ⟨⟨_, _, _, h⟩, h1, h2⟩; exact ⟨Prod.ext h1.symm h2.symm, h⟩
  · rintro ⟨_, _⟩ ⟨_, _⟩ p p' ⟨⟨_, _, _, h⟩, h1, h2⟩; exact ⟨Prod.ext h1.symm h2.symm, h⟩

/-- **C13** (controlled steppers), for arbitrary steppers that never turn a non-zero step size into
zero. -/
theorem mirror_controlled (eps : K) (heps : 0 ≤ eps)
    (f : Q → S → K → K → Except Err (TryResult Q S K))
    (hf : ∀ q x t dt r, f q x t dt = .ok r → dt ≠ 0 → r.dt ≠ 0)
    (q : Q) (x : S) (t0 t1 dt : K) (hdt : dt ≠ 0) (n : ℕ) (l : List K) (w : Log S K) :
    let A := TimeArith.exact K eps
    let st := loggedControlled f
    let st' := loggedControlled (mirrorTry f)
    integrateNStepsControlled A st' record q x (-t0) (-dt) n w.neg =
      (integrateNStepsControlled A st record q x t0 dt n w).image (fun r => (r.1, -r.2)) Log.neg ∧
    integrateConstControlled A st' record q x (-t0) (-t1) (-dt) w.neg =
      (integrateConstControlled A st record q x t0 t1 dt w).image id Log.neg ∧
    integrateAdaptiveControlled A st' record q x (-t0) (-t1) (-dt) w.neg =
      (integrateAdaptiveControlled A st record q x t0 t1 dt w).image
        (fun r => ⟨r.x, -r.t, -r.dt, r.count⟩) Log.neg ∧
    integrateTimesControlled A st' record q x (l.map (- ·)) (-dt) w.neg =
      (integrateTimesControlled A st record q x l dt w).image id Log.neg := by
  intro A st st'
  have hA := negTimeRel eps heps
  have hst := neg_ctrl_sim f hf
  have ho := neg_obs_sim' (Q := Q) (S := S) (K := K)
  have hJ : NegJ q q w w.neg := ⟨rfl, rfl⟩
  have hd : NegD dt (-dt) := ⟨hdt, rfl⟩
  have hl : List.Forall₂ NegT l (l.map (- ·)) := by
    rw [List.forall₂_map_right_iff]; exact List.forall₂_same.mpr fun _ _ => rfl
  have hE : ∀ (q q' : Q) w w', NegJ q q' w w' → (negCtx S K).RE w w' := fun _ _ _ _ h => h.2
  have hc : ∀ (b b' : Q) (w w' : Log S K), NegJ b b' w w' → NegJ q q w w' := fun _ _ _ _ h => ⟨rfl, h.2⟩
  refine ⟨image_eq ?_ (integrateNStepsControlled_sim hA hE hst ho n hc hJ rfl rfl hd),
    image_eq ?_ (integrateConstControlled_sim hA hE hst ho hc hJ rfl rfl rfl hd),
    image_eq ?_ (integrateAdaptiveControlled_sim hA hE hst ho hJ rfl rfl rfl hd),
    image_eq ?_ (integrateTimesControlled_sim hA hE hst ho hl hJ rfl hd)⟩
  · rintro ⟨_, _⟩ ⟨_, _⟩ p p' ⟨⟨_, _, _, h⟩, h1, h2⟩; exact ⟨Prod.ext h1.symm h2, h⟩
  · rintro ⟨_, _⟩ ⟨_, _⟩ p p' ⟨⟨_, _, _, h⟩, h1, h2⟩; exact ⟨Prod.ext h1.symm h2.symm, h⟩
  · rintro ⟨_, _, _, _⟩ ⟨_, _, _, _⟩ p p' ⟨⟨_, _, _, h⟩, h1, h2, ⟨_, h3⟩, h4⟩
    simp only [NegT] at h1 h2 h3 h4
    subst h1; subst h2; subst h3; subst h4
    exact ⟨rfl, h⟩
  · rintro ⟨_, _⟩ ⟨_, _⟩ p p' ⟨⟨_, _, _, h⟩, h1, h2⟩; exact ⟨Prod.ext h1.symm h2.symm, h⟩

/-- **C13** (dense output steppers, `integrate_const` and `integrate_adaptive`), for arbitrary dense
output steppers whose steps keep the direction.  (`integrate_n_steps` is *not* mirror symmetric, see
C11.) -/
theorem mirror_dense (eps : K) (heps : 0 ≤ eps) (p : PureDense Q S K) (hp : DenseDir p)
    (q : Q) (x : S) (t0 t1 dt : K) (hdt : dt ≠ 0) (w : Log S K) :
    let A := TimeArith.exact K eps
    let st := loggedDense p
    let st' := loggedDense p.mirror
    integrateConstDense A st' record q x (-t0) (-t1) (-dt) w.neg =
      (integrateConstDense A st record q x t0 t1 dt w).image id Log.neg ∧
    integrateAdaptiveDense A st' record q x (-t0) (-t1) (-dt) w.neg =
      (integrateAdaptiveDense A st record q x t0 t1 dt w).image id Log.neg := by
  intro A st st'
  have hA := negTimeRel eps heps
  have hst := neg_dense_sim p hp
  have hd : NegD dt (-dt) := ⟨hdt, rfl⟩
  have h0 := neg_dense_init p hp (q := q) (x := x) (t := t0) (w := w) (w' := w.neg) rfl hdt
  constructor
  · refine image_eq ?_ (integrateConstDense_sim hA hst (neg_obs_sim (J := fun q => p.curDt q ≠ 0)) h0
      rfl rfl rfl hd)
    rintro ⟨_, _⟩ ⟨_, _⟩ p p' ⟨⟨_, _, _, _, h⟩, h1, h2⟩; exact ⟨Prod.ext h1.symm h2.symm, h⟩
  · refine image_eq ?_ (integrateAdaptiveDense_sim (A := A) (A' := A) (e := t1) (e' := -t1)
      (JR := fun q q' w w' => (p.curDt q ≠ 0 ∨ |p.curTime q - t1| ≤ eps) ∧ NegJ q q' w w')
      (JR2 := NegDJ p) (RS := Eq) ?_ ?_ ?_ ?_ ?_ ?_ ?_ ?_ hst.mono_init hst.mono_step
      (fun _ _ => plainCtx_mono _ _) (h0.mono ?_))
    · rintro ⟨_, _⟩ ⟨_, _⟩ p p' ⟨⟨_, _, _, _, h⟩, h1, h2⟩; exact ⟨Prod.ext h1.symm h2.symm, h⟩
    · rintro q _ w w' ⟨h | h, rfl, hw⟩
      · exact hA.less rfl rfl ⟨h, rfl⟩
      · have e1 : A.lessWithSign (st.curTime q) t1 (st.curDt q) = false := by
          rw [exact_less_false]
          refine (le_abs_self _).trans ?_
          rw [abs_dirSign_mul, abs_sub_comm]; exact h
        have e2 : A.lessWithSign (st'.curTime q) (-t1) (st'.curDt q) = false := by
          rw [exact_less_false]
          refine (le_abs_self _).trans ?_
          rw [abs_dirSign_mul]
          show |-t1 - -p.curTime q| ≤ eps
          rw [show -t1 - -p.curTime q = p.curTime q - t1 by ring]; exact h
        rw [e1, e2]
    · rintro q _ w w' ⟨h | h, rfl, hw⟩ hc
      · exact ⟨h, rfl, hw⟩
      · exfalso
        rw [exact_less] at hc
        have : dirSign (st.curDt q) * (t1 - st.curTime q) ≤ eps := by
          refine (le_abs_self _).trans ?_
          rw [abs_dirSign_mul, abs_sub_comm]; exact h
        linarith
    · rintro q _ w w' ⟨h, rfl, hw⟩
      exact hA.lessEq (hA.add rfl ⟨h, rfl⟩) rfl ⟨h, rfl⟩
    · rintro q _ w w' ⟨h, rfl, hw⟩ _
      exact neg_dense_step p hp hw h
    · rintro q _ w w' ⟨h, rfl, hw⟩ _
      show (negCtx S K).Rel _ ((loggedDense p).init q (p.curState q) (p.curTime q) (t1 - p.curTime q) w)
        ((loggedDense p.mirror).init q (p.curState q) (-p.curTime q) (-t1 - -p.curTime q) w')
      have e : -t1 - -p.curTime q = -(t1 - p.curTime q) := by ring
      rw [e]
      simp only [loggedDense, PureDense.mirror, neg_neg]
      refine (logCall_neg (R := fun q' _ => p.curDt q' ≠ 0 ∨ |p.curTime q' - t1| ≤ eps) hw
        (.init _ _ _) _ ?_).mono ?_
      · intro q' hq
        rw [hp.init_dt _ _ _ _ _ hq, hp.init_time _ _ _ _ _ hq]
        by_cases h0 : t1 - p.curTime q = 0
        · right; rw [abs_sub_comm, h0, abs_zero]; exact heps
        · left; exact h0
      · rintro q' _ w w' ⟨rfl, h, hw⟩; exact ⟨h, rfl, hw⟩
    · rintro q _ w w' ⟨h, rfl, hw⟩
      exact (neg_obs_sim (J := fun q => p.curDt q ≠ 0 ∨ |p.curTime q - t1| ≤ eps)).call ⟨h, rfl, hw⟩ rfl
        rfl
    · rintro q _ w w' ⟨h, rfl, hw⟩
      exact (neg_obs_sim (J := fun q => p.curDt q ≠ 0)).call ⟨h, rfl, hw⟩ rfl rfl
    · rintro q _ w w' ⟨h, rfl, hw⟩; rfl
    · rintro q _ w w' ⟨h, rfl, hw⟩; exact ⟨.inl h, rfl, hw⟩

/-- **C13** (dense output steppers, `integrate_times`), for monotone sequences of times. -/
theorem mirror_dense_times (eps : K) (heps : 0 ≤ eps) (p : PureDense Q S K) (hp : DenseDir p)
    (q : Q) (x : S) (dt : K) (hdt : dt ≠ 0) (l : List K) (hl : MonotoneTimes dt l) (w : Log S K) :
    integrateTimesDense (TimeArith.exact K eps) (loggedDense p.mirror) record q x (l.map (- ·)) (-dt)
        w.neg =
      (integrateTimesDense (TimeArith.exact K eps) (loggedDense p) record q x l dt w).image
        id Log.neg := by
  have hA := negTimeRel eps heps
  cases l with
  | nil => rfl
  | cons t0 l =>
    have hm := (List.pairwise_cons.mp hl).2
    have hne : ∀ d, SameDir dt d → d ≠ 0 := fun d h => h.ne_zero
    rw [List.map_cons]
    refine image_eq ?_ (integrateTimesDense_sim (A := TimeArith.exact K eps)
      (A' := TimeArith.exact K eps) (st := loggedDense p) (st' := loggedDense p.mirror)
      (JR := fun q q' w w' => SameDir dt (p.curDt q) ∧ NegJ q q' w w') (RS := Eq) (RT := NegT)
      ?_ ?_ ?_ ?_ ?_ neg_obs_sim (fun _ _ _ _ => plainCtx_mono _ _) (fun _ => plainCtx_mono _ _)
      (fun _ _ => plainCtx_mono _ _) rfl rfl ?_ ?_)
    · rintro ⟨_, _⟩ ⟨_, _⟩ p p' ⟨⟨_, _, _, _, h⟩, h1, h2⟩; exact ⟨Prod.ext h1.symm h2.symm, h⟩
    · rintro q _ w w' τ _ ⟨h, rfl, hw⟩ rfl _
      exact hA.lessEq rfl rfl ⟨hne _ h, rfl⟩
    · rintro q _ w w' ⟨h, rfl, hw⟩
      rw [getLastD_neg]
      exact hA.lessEq (hA.add rfl ⟨hne _ h, rfl⟩) rfl ⟨hne _ h, rfl⟩
    · rintro q _ w w' ⟨h, rfl, hw⟩
      simp only [loggedDense, PureDense.mirror]
      refine (logCall_neg (R := fun q _ => SameDir dt (p.curDt q)) hw
        (.step (p.curState q) (p.curTime q) (p.curDt q)) _ ?_).mono ?_
      · intro q' hq; exact h.trans (hp.dir _ _ hq (hne _ h))
      · rintro q' _ w w' ⟨rfl, h, hw⟩; exact ⟨h, rfl, hw⟩
    · rintro q _ w w' τ _ ⟨h, rfl, hw⟩ rfl
      refine (neg_dense_calc p hw).mono ?_
      rintro x _ w w' ⟨rfl, hw⟩; exact ⟨⟨h, rfl, hw⟩, rfl⟩
    · rintro q _ w w' τ l' ⟨h, rfl, hw⟩ hsuf hc
      have hτ : τ ∈ l := hsuf.subset (by simp)
      rw [exact_lessEq_false] at hc
      have hlast := MonotoneTimes.last hm t0 hτ
      rw [getLastD_neg]
      show (negCtx S K).Rel _
        ((loggedDense p).init q (p.curState q) (p.curTime q) (l.getLastD t0 - p.curTime q) w)
        ((loggedDense p.mirror).init q (p.curState q) (-p.curTime q)
          (-(l.getLastD t0) - -p.curTime q) w')
      have e : -(l.getLastD t0) - -p.curTime q = -(l.getLastD t0 - p.curTime q) := by ring
      rw [e]
      simp only [loggedDense, PureDense.mirror, neg_neg]
      refine (logCall_neg (R := fun q' _ => SameDir dt (p.curDt q')) hw (.init _ _ _) _ ?_).mono ?_
      · intro q' hq
        rw [hp.init_dt _ _ _ _ _ hq, sameDir_iff hdt]
        have hc' : eps < dirSign dt * (τ - p.curTime q) := by
          rw [dirSign_of_sameDir h]; exact hc
        have : dirSign dt * (l.getLastD t0 - p.curTime q) =
          dirSign dt * (l.getLastD t0 - τ) + dirSign dt * (τ - p.curTime q) := by ring
        rw [this]; linarith
      · rintro q' _ w w' ⟨rfl, h, hw⟩; exact ⟨h, rfl, hw⟩
    · rw [List.forall₂_map_right_iff]; exact List.forall₂_same.mpr fun _ _ => rfl
    · simp only [loggedDense, PureDense.mirror, neg_neg]
      refine (logCall_neg (R := fun q' _ => SameDir dt (p.curDt q')) rfl (.init _ _ _) _ ?_).mono ?_
      · intro q' hq; rw [hp.init_dt _ _ _ _ _ hq]; exact SameDir.refl hdt
      · rintro q' _ w w' ⟨rfl, h, hw⟩; exact ⟨h, rfl, hw⟩

/-- Non-vacuity of the hypothesis about controlled steppers: a stepper that halves or doubles its step
size. -/
example : let f : Unit → ℚ → ℚ → ℚ → Except Err (TryResult Unit ℚ ℚ) := fun q x t dt =>
      if |dt| ≤ 1 then .ok ⟨q, x + dt, t + dt, 2 * dt, true⟩ else .ok ⟨q, x, t, dt / 2, false⟩
    ∀ q x t dt r, f q x t dt = .ok r → dt ≠ 0 → r.dt ≠ 0 := by
  intro f q x t dt r h hd
  simp only [f] at h
  split at h <;> cases h <;> simpa using hd

/-- Non-vacuity of the hypothesis about dense output steppers. -/
example : DenseDir (rampDense (2 : ℚ)) := (rampDense_contract 2 (by norm_num)).toDenseDir

/-- Non-vacuity: a concrete backward run and its forward mirror image. -/
example :
    integrateNStepsBasic (TimeArith.exact ℚ 0)
        (loggedBasic (mirrorStep fun q x _ dt => .ok (q, x + dt))) record () 5 1 (-1/2) 2 [] =
      .ok (6, 0) [.obs 5 1, .step 5 1 (-1/2), .obs (11/2) (1/2), .step (11/2) (1/2) (-1/2),
        .obs 6 (0 : ℚ)] ∧
    integrateNStepsBasic (TimeArith.exact ℚ 0)
        (loggedBasic (fun q x _ dt => .ok (q, x + dt))) record () 5 (-1) (1/2) 2 [] =
      .ok (6, 0) [.obs 5 (-1), .step 5 (-1) (1/2), .obs (11/2) (-1/2), .step (11/2) (-1/2) (1/2),
        .obs 6 (0 : ℚ)] := by
  constructor <;>
  norm_num [integrateNStepsBasic, nStepsBasicLoop, loggedBasic, record, M.modify, mirrorStep,
    M.bind_apply, M.pure_apply, M.map_apply, TimeArith.exact]

end Verif
