import Verif.Spec.Reversed
import Verif.Lemmas.Mirror
import Verif.Props.RescaleSteppers
import Verif.Props.ControlledRk
import Verif.Props.Conserved
import Verif.Spec.ControlledRun

/-!
# C95: a program that integrates backward makes the steps of the one that integrates the reversed system forward
-/

namespace Verif
open SimCtx
variable {K V W : Type} [Field K] [LinearOrder K] [AddCommGroup V] [Module K V]

/-! ## Steps -/

omit [LinearOrder K] in
theorem reversedSys_eq (sys : Sys K V W) : reversedSys sys = rescaleSys (-1 : K) 0 sys := by
  funext x t
  unfold reversedSys rescaleSys
  have e : (t - 0) / (-1 : K) = -t := by rw [sub_zero, div_neg, div_one]
  rw [e]
  congr 1
  funext k
  congr 1
  rw [inv_neg, inv_one, neg_smul, one_smul]

theorem rkErrStep_rescale {c b : K} (hc : c ≠ 0) (T : Tableau K) (b2 : List K) (sys : Sys K V W) (x k : V) (t dt : K) :
    rkErrStep T b2 (rescaleSys c b sys) x (c⁻¹ • k) (c * t + b) (c * dt) = rkErrStep T b2 sys x k t dt := by
  unfold rkErrStep rkAllStages
  have := rkStages_rescale (b := b) hc sys x t dt (T.c.tail.zip T.a) [k]
  rw [List.map_singleton] at this
  rw [this, bind_map_left]
  congr 1
  funext ks
  unfold rkResult
  rw [lin_cons, lin_cons, lin_zip_scale hc, lin_zip_scale hc]

theorem errRecipe_rescale {c b : K} (hc : c ≠ 0) (s : ErrorStepper K) (sys : Sys K V W) (x k : V) (t dt : K) :
    s.errRecipe (rescaleSys c b sys) x (c⁻¹ • k) (c * t + b) (c * dt) = s.errRecipe sys x k t dt := by
  have e : ∀ (d : K) (v : V), (c * d) • c⁻¹ • v = d • v := by
    intro d v
    rw [smul_smul]
    congr 1
    field_simp
  have e1 : ∀ (d f : K) (v : V), (c * d * f) • c⁻¹ • v = (d * f) • v := fun d f v => by rw [mul_assoc, e]
  have nil : lin ([] : List (K × V)) = 0 := rfl
  cases s with
  | generic T b2 => exact rkErrStep_rescale hc T b2 sys x k t dt
  | cashKarp => exact rkErrStep_rescale hc _ _ sys x k t dt
  | fehlberg => exact rkErrStep_rescale hc _ _ sys x k t dt
  | cashKarpClassic =>
    unfold ErrorStepper.errRecipe
    dsimp only
    unfold cashKarpClassicErrStep cashKarpClassicStages
    simp only [bind_assoc, pure_bind]
    rw [rescaleSys_bind (b := b) hc sys _ (t + dt * frac 1 5) _ (by ring)]
    simp only [lin_cons, nil, e1]
    congr 1
    funext k2
    rw [rescaleSys_bind (b := b) hc sys _ (t + dt * frac 3 10) _ (by ring)]
    simp only [e1]
    congr 1
    funext k3
    rw [rescaleSys_bind (b := b) hc sys _ (t + dt * frac 3 5) _ (by ring)]
    simp only [e1]
    congr 1
    funext k4
    rw [rescaleSys_bind (b := b) hc sys _ (t + dt * lit 1) _ (by ring)]
    simp only [e1]
    congr 1
    funext k5
    rw [rescaleSys_bind (b := b) hc sys _ (t + dt * frac 7 8) _ (by ring)]
    simp only [e1]

omit [LinearOrder K] in
theorem reversed_args (t dt : K) (k : V) : -t = (-1 : K) * t + 0 ∧ -dt = (-1 : K) * dt ∧ -k = (-1 : K)⁻¹ • k :=
  ⟨by ring, by ring, by rw [inv_neg, inv_one, neg_smul, one_smul]⟩

theorem recipe_reversed (s : ExplicitStepper K) (sys : Sys K V W) (x k : V) (t dt : K) :
    s.recipe (reversedSys sys) x (-k) (-t) (-dt) = s.recipe sys x k t dt := by
  obtain ⟨e1, e2, e3⟩ := reversed_args t dt k
  rw [reversedSys_eq, e1, e2, e3]
  exact recipe_rescale (by norm_num) s sys x k t dt

theorem errRecipe_reversed (s : ErrorStepper K) (sys : Sys K V W) (x k : V) (t dt : K) :
    s.errRecipe (reversedSys sys) x (-k) (-t) (-dt) = s.errRecipe sys x k t dt := by
  obtain ⟨e1, e2, e3⟩ := reversed_args t dt k
  rw [reversedSys_eq, e1, e2, e3]
  exact errRecipe_rescale (by norm_num) s sys x k t dt

omit [LinearOrder K] [Module K V] in
theorem reversedSys_bind {α : Type} (sys : Sys K V W) (x : V) (t : K) (f : V → M W α) : (reversedSys sys x (-t) >>= f) = sys x t >>= fun k => f (-k) := by
  unfold reversedSys
  rw [neg_neg, bind_assoc]
  simp only [pure_bind]

/-- the trial with the negated step sizes -/
def Trial.neg : Trial K V → Trial K V
  | .limited d => .limited (-d)
  | .rejected y e d => .rejected y e (-d)
  | .accepted y e d => .accepted y e (-d)

/-- the proposed step size -/
def Trial.newDt : Trial K V → K
  | .limited d => d
  | .rejected _ _ d => d
  | .accepted _ _ d => d

theorem trial_reversed {P P' : CtrlParams K V} (hP : ReversedControl P P') (s : ErrorStepper K) (sys : Sys K V W) (x k : V) (t dt : K) (hdt : dt ≠ 0) :
    trial P' s.errRecipe (reversedSys sys) x (-k) (-t) (-dt) = Trial.neg <$> trial P s.errRecipe sys x k t dt := by
  unfold trial
  rw [hP.limit _ hdt, errRecipe_reversed]
  by_cases hl : P.adjuster.checkStepSizeLimit dt = false
  · rw [if_pos hl, if_pos hl, map_pure, (hP.maxDt _ hl).1]
    rfl
  · rw [if_neg hl, if_neg hl, map_bind]
    congr 1
    funext r
    dsimp only
    rw [hP.error, hP.gtOne, hP.errorOrder, hP.stepperOrder, (hP.decrease _ _ _ hdt).1, (hP.increase _ _ _ hdt).1]
    split <;> rfl

omit [LinearOrder K] [Module K V] in
theorem trial_newDt {P P' : CtrlParams K V} (hP : ReversedControl P P') (step : Recipe K V W (V × V)) (sys : Sys K V W) (x k : V) (t dt : K) (hdt : dt ≠ 0) (w : W) :
    (trial P step sys x k t dt w).Keeps (fun T _ => T.newDt ≠ 0) fun _ => True := by
  unfold trial
  by_cases hl : P.adjuster.checkStepSizeLimit dt = false
  · rw [if_pos hl]
    exact (hP.maxDt _ hl).2
  · rw [if_neg hl]
    refine Res.Keeps.bind (R := fun _ _ => True) ?_ fun r w _ => ?_
    · cases step sys x k t dt w <;> trivial
    · by_cases hg : P.gtOne (P.checker.error x k r.2 dt).2 = true
      · rw [if_pos hg]
        exact (hP.decrease _ _ _ hdt).2
      · rw [if_neg hg]
        exact (hP.increase _ _ _ hdt).2

/-! ## Whole integrations -/

variable [IsStrictOrderedRing K]

/-- the relation between the worlds -/
def RevW (w w' : W × Log V K) : Prop := w' = mirrorWorld w

omit [LinearOrder K] [Module K V] [IsStrictOrderedRing K] [AddCommGroup V] in
theorem rev_obs' {Q Q' : Type} (same : Q → Q' → Prop) :
    ObsSim (plainCtx (RevW (W := W) (V := V) (K := K))) (fun q q' w w' => same q q' ∧ RevW w w') Eq NegT recordObserver recordObserver where
  call := by
    rintro q q' x _ t _ w w' ⟨hq, hw⟩ rfl rfl
    obtain rfl : w' = mirrorWorld w := hw
    refine .ok ⟨hq, ?_⟩
    show _ = _
    simp [mirrorWorld, Log.neg, Event.neg]
  mono := by intros; exact plainCtx_mono _ _

omit [LinearOrder K] [Module K V] [IsStrictOrderedRing K] [AddCommGroup V] in
theorem rev_image {α β : Type} {R : α → β → W × Log V K → W × Log V K → Prop} {f : α → β} (hR : ∀ a a' w w', R a a' w w' → a' = f a ∧ RevW w w')
    {r : Res (W × Log V K) α} {r' : Res (W × Log V K) β} (h : (plainCtx (RevW (W := W) (V := V) (K := K))).Rel R r r') : r' = r.image f mirrorWorld := by
  cases h with
  | ok h =>
    obtain ⟨h1, h2⟩ := hR _ _ _ _ h
    rw [h1, show _ = _ from h2]; rfl
  | err h => rw [show _ = _ from h]; rfl
  | esc h _ => exact absurd h id
  | ub => rfl
  | div => rfl

omit [Module K V] [AddCommGroup V] in
theorem basic_reverses {Q Q' : Type} {st : BasicStepper Q (W × Log V K) V K} {st' : BasicStepper Q' (W × Log V K) V K} {eps : K} (heps : 0 ≤ eps)
    {same : Q → Q' → Prop} (hst : BasicSim (plainCtx RevW) (fun q q' w w' => same q q' ∧ RevW w w') Eq NegT NegD st st') : BasicReverses eps same st st' := by
  intro q q' x t0 t1 dt n times w hq hdt A
  have hA := negTimeRel eps heps
  have ho := rev_obs' (W := W) (V := V) (K := K) same
  have hJ : same q q' ∧ RevW w (mirrorWorld w) := ⟨hq, rfl⟩
  have hd : NegD dt (-dt) := ⟨hdt, rfl⟩
  have hl : List.Forall₂ NegT times (times.map (- ·)) := by
    rw [List.forall₂_map_right_iff]; exact List.forall₂_same.mpr fun _ _ => rfl
  have hc : ∀ (b : Q) (b' : Q') (w w' : W × Log V K), same b b' ∧ RevW w w' → same q q' ∧ RevW w w' := fun _ _ _ _ h => ⟨hq, h.2⟩
  refine ⟨rev_image ?_ (integrateNStepsBasic_sim hA hst ho n hJ rfl rfl hd),
    rev_image ?_ (integrateConstBasic_sim hA hst ho (fun _ _ => False) (fun _ _ _ _ _ _ h => h.elim) hJ rfl rfl rfl hd),
    rev_image ?_ (integrateAdaptiveBasic_sim hA hst ho hc hJ rfl rfl rfl hd),
    rev_image ?_ (integrateTimesBasic_sim hA hst ho hl hJ rfl hd)⟩
  · rintro ⟨_, _⟩ ⟨_, _⟩ p p' ⟨⟨_, _, -, h⟩, h1, h2⟩; exact ⟨Prod.ext h1.symm h2, h⟩
  · rintro ⟨_, _⟩ ⟨_, _⟩ p p' ⟨⟨_, _, -, h⟩, -, h1, h2⟩; exact ⟨Prod.ext h1.symm h2.symm, h⟩
  · rintro ⟨_, _⟩ ⟨_, _⟩ p p' ⟨⟨_, _, -, h⟩, h1, h2⟩; exact ⟨Prod.ext h1.symm h2.symm, h⟩
  · rintro ⟨_, _⟩ ⟨_, _⟩ p p' ⟨⟨_, _, -, h⟩, h1, h2⟩; exact ⟨Prod.ext h1.symm h2.symm, h⟩

omit [Module K V] [AddCommGroup V] in
theorem controlled_reverses {Q Q' : Type} {st : ControlledStepper Q (W × Log V K) V K} {st' : ControlledStepper Q' (W × Log V K) V K} {eps : K} (heps : 0 ≤ eps)
    {same : Q → Q' → Prop} (hst : CtrlSim (plainCtx RevW) (fun q q' w w' => same q q' ∧ RevW w w') Eq NegT NegD st st') : ControlledReverses eps same st st' := by
  intro q q' x t0 t1 dt n times w hq hdt A
  have hA := negTimeRel eps heps
  have ho := rev_obs' (W := W) (V := V) (K := K) same
  have hJ : same q q' ∧ RevW w (mirrorWorld w) := ⟨hq, rfl⟩
  have hd : NegD dt (-dt) := ⟨hdt, rfl⟩
  have hl : List.Forall₂ NegT times (times.map (- ·)) := by
    rw [List.forall₂_map_right_iff]; exact List.forall₂_same.mpr fun _ _ => rfl
  have hE : ∀ (q : Q) (q' : Q') (w w' : W × Log V K), same q q' ∧ RevW w w' → (plainCtx (RevW (W := W) (V := V) (K := K))).RE w w' := fun _ _ _ _ h => h.2
  have hc : ∀ (b : Q) (b' : Q') (w w' : W × Log V K), same b b' ∧ RevW w w' → same q q' ∧ RevW w w' := fun _ _ _ _ h => ⟨hq, h.2⟩
  refine ⟨rev_image ?_ (integrateNStepsControlled_sim hA hE hst ho n hc hJ rfl rfl hd),
    rev_image ?_ (integrateConstControlled_sim hA hE hst ho hc hJ rfl rfl rfl hd),
    rev_image ?_ (integrateAdaptiveControlled_sim hA hE hst ho hJ rfl rfl rfl hd),
    rev_image ?_ (integrateTimesControlled_sim hA hE hst ho hl hJ rfl hd)⟩
  · rintro ⟨_, _⟩ ⟨_, _⟩ p p' ⟨⟨_, _, -, h⟩, h1, h2⟩; exact ⟨Prod.ext h1.symm h2, h⟩
  · rintro ⟨_, _⟩ ⟨_, _⟩ p p' ⟨⟨_, _, -, h⟩, h1, h2⟩; exact ⟨Prod.ext h1.symm h2.symm, h⟩
  · rintro ⟨_, _, _, _⟩ ⟨_, _, _, _⟩ p p' ⟨⟨_, _, -, h⟩, h1, h2, ⟨_, h3⟩, h4⟩
    simp only [NegT] at h1 h2 h3 h4
    subst h1; subst h2; subst h3; subst h4
    exact ⟨rfl, h⟩
  · rintro ⟨_, _⟩ ⟨_, _⟩ p p' ⟨⟨_, _, -, h⟩, h1, h2⟩; exact ⟨Prod.ext h1.symm h2.symm, h⟩

/-- **C95**, explicit steppers with a fixed step size, whatever the two steppers were used for before. -/
theorem explicit_reverses (s : ExplicitStepper K) (hs : s.WellFormed) (sys : Sys K V W) {eps : K} (heps : 0 ≤ eps) :
    BasicReverses eps (fun _ _ => True) (stepperObject fun x t dt => doStep1 s.impl sys x t dt) (stepperObject fun x t dt => doStep1 s.impl (reversedSys sys) x t dt) := by
  refine basic_reverses heps ⟨?_, by intros; exact plainCtx_mono _ _⟩
  rintro q q' x _ t _ d _ w w' ⟨-, hw⟩ rfl rfl ⟨-, rfl⟩
  obtain rfl : w' = mirrorWorld w := hw
  have h1 := doStep1_implements s hs sys (.user 0) t d ((q.set (.user 0) x).withWorld w.1) (ownedBy_user _ _)
  have h2 := doStep1_implements s hs (reversedSys sys) (.user 0) (-t) (-d) ((q'.set (.user 0) x).withWorld w.1) (ownedBy_user _ _)
  unfold Implements at h1 h2
  have e0 : ((q.set (.user 0) x).withWorld w.1).state (.user 0) = x := by simp [Heap.withWorld]
  have e0' : ((q'.set (.user 0) x).withWorld w.1).state (.user 0) = x := by simp [Heap.withWorld]
  rw [e0'] at h2
  rw [e0] at h1
  simp only [reversedSys_bind, recipe_reversed] at h2
  simp only [stepperObject, mirrorWorld]
  rw [show ((q.set (.user 0) x).withWorld w.1).world = w.1 from rfl] at h1
  rw [show ((q'.set (.user 0) x).withWorld w.1).world = w.1 from rfl] at h2
  cases e : (do let k ← sys x t; s.recipe sys x k t d : M W V) w.1 with
  | ok y v =>
    rw [e] at h1 h2
    obtain ⟨g1, a1, b1, c1⟩ := h1
    obtain ⟨g2, a2, b2, c2⟩ := h2
    rw [a1, a2]
    refine .ok ⟨⟨trivial, ?_⟩, ?_⟩
    · show _ = _
      simp [mirrorWorld, b1, b2]
    · rw [(c1 _ (ownedBy_user _ _)).1, (c2 _ (ownedBy_user _ _)).1]
      simp [Heap.setAll]
  | err y v =>
    rw [e] at h1 h2
    obtain ⟨g1, a1, b1, c1⟩ := h1
    obtain ⟨g2, a2, b2, c2⟩ := h2
    rw [a1, a2]
    refine .err ?_
    show _ = _
    simp [mirrorWorld, b1, b2]
  | ub => rw [e] at h1 h2; rw [h1, h2]; exact .ub
  | div => rw [e] at h1 h2; rw [h1, h2]; exact .div

/-- **C95**, `controlled_runge_kutta`: also the step size control makes the same decisions. -/
theorem controlled_rk_reverses {P P' : CtrlParams K V} (hP : ReversedControl P P') (s : ErrorStepper K) (hs : s.WellFormed) (sys : Sys K V W) {eps : K}
    (heps : 0 ≤ eps) : ControlledReverses eps (fun _ _ => True) (controlledObject fun x t dt => tryStep1 P s.errImpl sys x t dt)
      (controlledObject fun x t dt => tryStep1 P' s.errImpl (reversedSys sys) x t dt) := by
  refine controlled_reverses heps ⟨?_, by intros; exact plainCtx_mono _ _⟩
  rintro q q' x _ t _ d _ w w' ⟨-, hw⟩ rfl rfl ⟨hd, rfl⟩
  obtain rfl : w' = mirrorWorld w := hw
  have h1 := try_step_contract P s hs sys 0 t d ((q.set (.user 0) x).withWorld w.1)
  have h2 := try_step_contract P' s hs (reversedSys sys) 0 (-t) (-d) ((q'.set (.user 0) x).withWorld w.1)
  unfold Computes at h1 h2
  have e0 : ((q.set (.user 0) x).withWorld w.1).state (.user 0) = x := by simp [Heap.withWorld]
  have e0' : ((q'.set (.user 0) x).withWorld w.1).state (.user 0) = x := by simp [Heap.withWorld]
  have hn : ((do let k ← sys x t; trial P s.errRecipe sys x k t d : M W (Trial K V)) w.1).Keeps (fun T _ => T.newDt ≠ 0) fun _ => True := by
    refine Res.Keeps.bind (R := fun _ _ => True) ?_ fun k w _ => trial_newDt hP _ sys x k t d hd w
    cases sys x t w.1 <;> trivial
  have e2 : (do let k ← reversedSys sys x (-t); trial P' s.errRecipe (reversedSys sys) x k (-t) (-d) : M W (Trial K V)) =
      Trial.neg <$> (do let k ← sys x t; trial P s.errRecipe sys x k t d) := by
    rw [reversedSys_bind, map_bind]
    congr 1
    funext k
    exact trial_reversed hP s sys x k t d hd
  rw [e0', e2] at h2
  rw [e0] at h1
  simp only [controlledObject, mirrorWorld]
  rw [show ((q.set (.user 0) x).withWorld w.1).world = w.1 from rfl] at h1
  rw [show ((q'.set (.user 0) x).withWorld w.1).world = w.1 from rfl] at h2
  rw [map_eq_pure_bind, M.bind_apply] at h2
  cases e : (do let k ← sys x t; trial P s.errRecipe sys x k t d : M W (Trial K V)) w.1 with
  | ok T v =>
    rw [e] at h1 h2 hn
    obtain ⟨g1, a1, b1, c1⟩ := h1
    obtain ⟨g2, a2, b2, c2⟩ := h2
    rw [a1, a2]
    have s1 := (c1 _ (ownedBy_user _ 0)).1
    have s2 := (c2 _ (ownedBy_user _ 0)).1
    refine .ok ⟨⟨trivial, ?_⟩, ?_, ?_, ⟨?_, ?_⟩, ?_⟩
    · show _ = _
      simp [mirrorWorld, b1, b2]
    · rw [s1, s2]
      cases T <;> simp [Heap.setAll, Trial.inPlace, Trial.neg, e0, e0']
    · cases T <;> simp [NegT, Trial.out, Trial.neg, add_comm]
    · cases T <;> exact hn
    · cases T <;> rfl
    · cases T <;> rfl
  | err y v =>
    rw [e] at h1 h2
    obtain ⟨g1, a1, b1, c1⟩ := h1
    obtain ⟨g2, a2, b2, c2⟩ := h2
    rw [a1, a2]
    refine .err ?_
    show _ = _
    simp [mirrorWorld, b1, b2]
  | ub => rw [e] at h1 h2; rw [h1, h2]; exact .ub
  | div => rw [e] at h1 h2; rw [h1, h2]; exact .div

end Verif
