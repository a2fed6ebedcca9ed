import Verif.Lemmas.Sim
import Verif.Model.Integrate

/-!
# Every integrate function preserves simulations

`JR` relates stepper states together with the worlds, `RS` the states, `RT` the times and `RD` the step
sizes of two runs.  If the time arithmetics, the steppers and the observers preserve these relations, so
does every integrate function.
-/

namespace Verif
open SimCtx

variable {W W' Q Q' S S' T T' : Type}

/-- Time arithmetics that preserve `RT`/`RD`. -/
structure TimeRel (A : TimeArith T) (A' : TimeArith T') (RT RD : T → T' → Prop) : Prop where
  add : ∀ {a a' d d'}, RT a a' → RD d d' → RT (A.add a d) (A'.add a' d')
  grid : ∀ {a a' d d'} (n : ℕ), RT a a' → RD d d' →
    RT (A.add a (A.nmul n d)) (A'.add a' (A'.nmul n d'))
  less : ∀ {a a' b b' d d'}, RT a a' → RT b b' → RD d d' →
    A.lessWithSign a b d = A'.lessWithSign a' b' d'
  lessEq : ∀ {a a' b b' d d'}, RT a a' → RT b b' → RD d d' →
    A.lessEqWithSign a b d = A'.lessEqWithSign a' b' d'
  sub : ∀ {a a' b b' d d'}, RT a a' → RT b b' → RD d d' → A.lessWithSign a b d = true →
    RD (A.sub b a) (A'.sub b' a')
  minAbs : ∀ {d d' e e'}, RD d d' → RD e e' → RD (A.minAbs d e) (A'.minAbs d' e')
  maxAbs : ∀ {d d' e e'}, RD d d' → RD e e' → RD (A.maxAbs d e) (A'.maxAbs d' e')

/-- Plain steppers that preserve the relations. -/
structure BasicSim (C : SimCtx W W') (JR : Q → Q' → W → W' → Prop) (RS : S → S' → Prop)
    (RT RD : T → T' → Prop) (st : BasicStepper Q W S T) (st' : BasicStepper Q' W' S' T') : Prop where
  step : ∀ {q q' x x' t t' d d' w w'}, JR q q' w w' → RS x x' → RT t t' → RD d d' →
    C.Rel (fun p p' w w' => JR p.1 p'.1 w w' ∧ RS p.2 p'.2)
      (st.doStep q x t d w) (st'.doStep q' x' t' d' w')
  mono : ∀ q x t d, C.Mono (st'.doStep q x t d)

/-- Controlled steppers that preserve the relations. -/
structure CtrlSim (C : SimCtx W W') (JR : Q → Q' → W → W' → Prop) (RS : S → S' → Prop)
    (RT RD : T → T' → Prop) (st : ControlledStepper Q W S T) (st' : ControlledStepper Q' W' S' T') :
    Prop where
  step : ∀ {q q' x x' t t' d d' w w'}, JR q q' w w' → RS x x' → RT t t' → RD d d' →
    C.Rel (fun r r' w w' => JR r.q r'.q w w' ∧ RS r.x r'.x ∧ RT r.t r'.t ∧ RD r.dt r'.dt ∧
        r.success = r'.success)
      (st.tryStep q x t d w) (st'.tryStep q' x' t' d' w')
  mono : ∀ q x t d, C.Mono (st'.tryStep q x t d)

/-- Observers that preserve the relations. -/
structure ObsSim (C : SimCtx W W') (JR : Q → Q' → W → W' → Prop) (RS : S → S' → Prop)
    (RT : T → T' → Prop) (obs : Observer W S T) (obs' : Observer W' S' T') : Prop where
  call : ∀ {q q' x x' t t' w w'}, JR q q' w w' → RS x x' → RT t t' →
    C.Rel (fun _ _ w w' => JR q q' w w') (obs x t w) (obs' x' t' w')
  mono : ∀ x t, C.Mono (obs' x t)

/-- the null observer preserves everything -/
theorem nullObserver_sim {C : SimCtx W W'} {JR : Q → Q' → W → W' → Prop} {RS : S → S' → Prop}
    {RT : T → T' → Prop} : ObsSim C JR RS RT (nullObserver (W := W)) (nullObserver (W := W')) where
  call h _ _ := .ok h
  mono _ _ := Mono.pure _

/-- Discharge `Mono` goals structurally. -/
syntax "mono_tac" : tactic
macro_rules
  | `(tactic| mono_tac) => `(tactic|
    repeat' (first
      | intro _
      | exact Mono.pure _
      | exact Mono.throw _
      | exact Mono.ub
      | solve_by_elim (maxDepth := 3)
      | (refine Mono.bind ?_ ?_)
      | (refine Mono.whileM ?_ _)
      | (refine Mono.ite ?_ ?_)
      | split))

section
variable {C : SimCtx W W'} {JR : Q → Q' → W → W' → Prop} {RS : S → S' → Prop}
  {RT RD : T → T' → Prop} {A : TimeArith T} {A' : TimeArith T'}
  {obs : Observer W S T} {obs' : Observer W' S' T'}

/-! ## plain steppers -/

theorem nStepsBasicLoop_mono {st' : BasicStepper Q' W' S' T'}
    (hs : ∀ q x t d, C.Mono (st'.doStep q x t d)) (ho : ∀ x t, C.Mono (obs' x t)) (start dt : T') :
    ∀ k j s, C.Mono (nStepsBasicLoop A' st' obs' start dt k j s) := by
  intro k
  induction k with
  | zero => intro j s; exact Mono.pure _
  | succ k ih => intro j s; unfold nStepsBasicLoop; mono_tac

theorem integrateNStepsBasic_sim (hA : TimeRel A A' RT RD) {st : BasicStepper Q W S T}
    {st' : BasicStepper Q' W' S' T'} (hst : BasicSim C JR RS RT RD st st')
    (hobs : ObsSim C JR RS RT obs obs') {q q' x x' t t' d d' w w'} (n : ℕ)
    (hJ : JR q q' w w') (hx : RS x x') (ht : RT t t') (hd : RD d d') :
    C.Rel (fun r r' w w' => (∃ q q', JR q q' w w') ∧ RS r.1 r'.1 ∧ RT r.2 r'.2)
      (integrateNStepsBasic A st obs q x t d n w)
      (integrateNStepsBasic A' st' obs' q' x' t' d' n w') := by
  have hm := hst.mono
  have ho := hobs.mono
  have loop : ∀ k j (s : NState Q S T) (s' : NState Q' S' T') w w', JR s.q s'.q w w' →
      RS s.x s'.x → RT s.time s'.time →
      C.Rel (fun s s' w w' => JR s.q s'.q w w' ∧ RS s.x s'.x ∧ RT s.time s'.time)
        (nStepsBasicLoop A st obs t d k j s w) (nStepsBasicLoop A' st' obs' t' d' k j s' w') := by
    intro k
    induction k with
    | zero => intro j s s' w w' h1 h2 h3; exact .ok ⟨h1, h2, h3⟩
    | succ k ih =>
      intro j s s' w w' h1 h2 h3
      have hml := nStepsBasicLoop_mono (A' := A') hm ho t' d' k
      unfold nStepsBasicLoop
      refine Rel.bind (hobs.call h1 h2 h3) ?_ (by mono_tac)
      intro _ _ w w' h1
      refine Rel.bind (hst.step h1 h2 h3 hd) ?_ (by mono_tac)
      rintro ⟨q1, x1⟩ ⟨q1', x1'⟩ w w' ⟨h1, h2⟩
      exact ih _ _ _ _ _ h1 h2 (hA.grid _ ht hd)
  unfold integrateNStepsBasic
  refine Rel.bind (loop n 0 ⟨q, x, t⟩ ⟨q', x', t'⟩ w w' hJ hx ht) ?_ (by mono_tac)
  rintro s s' w w' ⟨h1, h2, h3⟩
  refine Rel.bind (hobs.call h1 h2 h3) ?_ (by mono_tac)
  intro _ _ w w' h1
  exact .ok ⟨⟨_, _, h1⟩, h2, h3⟩

theorem integrateConstBasic_sim (hA : TimeRel A A' RT RD) {st : BasicStepper Q W S T}
    {st' : BasicStepper Q' W' S' T'} (hst : BasicSim C JR RS RT RD st st')
    (hobs : ObsSim C JR RS RT obs obs') {q q' x x' t t' e e' d d' w w'}
    (P : Q → Q' → Prop) (hP : ∀ a a' b b' w w', P a a' → JR b b' w w' → JR a a' w w')
    (hJ : JR q q' w w') (hx : RS x x') (ht : RT t t') (he : RT e e') (hd : RD d d') :
    C.Rel (fun r r' w w' => (∃ q q', JR q q' w w') ∧ (∀ a a', P a a' → JR a a' w w') ∧
        RS r.1 r'.1 ∧ r.2 = r'.2)
      (integrateConstBasic A st obs q x t e d w)
      (integrateConstBasic A' st' obs' q' x' t' e' d' w') := by
  have hm := hst.mono
  have ho := hobs.mono
  unfold integrateConstBasic
  refine Rel.bind (Rel.whileM
    (R := fun s s' w w' => JR s.q s'.q w w' ∧ RS s.x s'.x ∧ RT s.time s'.time ∧ s.step = s'.step)
    ?_ ?_ (by mono_tac) ⟨hJ, hx, ht, rfl⟩) ?_ (by mono_tac)
  · rintro s s' w w' ⟨_, _, h3, _⟩
    exact hA.lessEq (hA.add h3 hd) he hd
  · rintro s s' w w' ⟨h1, h2, h3, h4⟩ _ _
    refine Rel.bind (hobs.call h1 h2 h3) ?_ (by mono_tac)
    intro _ _ w w' h1
    refine Rel.bind (hst.step h1 h2 h3 hd) ?_ (by mono_tac)
    rintro ⟨q1, x1⟩ ⟨q1', x1'⟩ w w' ⟨h1, h2⟩
    rw [h4]
    exact .ok ⟨h1, h2, hA.grid _ ht hd, rfl⟩
  · rintro s s' w w' ⟨⟨h1, h2, h3, h4⟩, _⟩
    refine Rel.bind (hobs.call h1 h2 h3) ?_ (by mono_tac)
    intro _ _ w w' h1
    exact .ok ⟨⟨_, _, h1⟩, fun a a' h => hP _ _ _ _ _ _ h h1, h2, h4⟩

theorem integrateConstBasic_mono {st' : BasicStepper Q' W' S' T'}
    (hs : ∀ q x t d, C.Mono (st'.doStep q x t d)) (ho : ∀ x t, C.Mono (obs' x t)) (q x start e dt) :
    C.Mono (integrateConstBasic A' st' obs' q x start e dt) := by
  unfold integrateConstBasic; mono_tac

theorem integrateAdaptiveBasic_sim (hA : TimeRel A A' RT RD) {st : BasicStepper Q W S T}
    {st' : BasicStepper Q' W' S' T'} (hst : BasicSim C JR RS RT RD st st')
    (hobs : ObsSim C JR RS RT obs obs') {q q' x x' t t' e e' d d' w w'}
    (hcopy : ∀ b b' w w', JR b b' w w' → JR q q' w w')
    (hJ : JR q q' w w') (hx : RS x x') (ht : RT t t') (he : RT e e') (hd : RD d d') :
    C.Rel (fun r r' w w' => (∃ q q', JR q q' w w') ∧ RS r.1 r'.1 ∧ r.2 = r'.2)
      (integrateAdaptiveBasic A st obs q x t e d w)
      (integrateAdaptiveBasic A' st' obs' q' x' t' e' d' w') := by
  have hm := hst.mono
  have ho := hobs.mono
  unfold integrateAdaptiveBasic
  refine Rel.bind (integrateConstBasic_sim hA hst hobs (fun a a' => a = q ∧ a' = q')
    (by rintro _ _ b b' w w' ⟨rfl, rfl⟩ h; exact hcopy _ _ _ _ h) hJ hx ht he hd) ?_ ?_
  · rintro ⟨x1, k⟩ ⟨x1', k'⟩ w w' ⟨h0, h1, h2, h3⟩
    have h1 := h1 q q' ⟨rfl, rfl⟩
    simp only at h2 h3 ⊢
    subst h3
    have hg := hA.grid k ht hd
    have hl := hA.less hg he hd
    rw [← hl]
    split
    · rename_i hlt
      refine Rel.bind (hst.step h1 h2 hg (hA.sub hg he hd hlt)) ?_ (by mono_tac)
      rintro ⟨q1, x1⟩ ⟨q1', x1'⟩ w w' ⟨h1, h2⟩
      refine Rel.bind (hobs.call h1 h2 he) ?_ (by mono_tac)
      intro _ _ w w' h1
      exact .ok ⟨⟨_, _, h1⟩, h2, rfl⟩
    · exact .ok ⟨h0, h2, rfl⟩
  · rintro ⟨x1, k⟩
    simp only
    mono_tac

/-! ## controlled steppers -/

theorem failedStepChecker_mono (m c : ℕ) : C.Mono (failedStepChecker m c : M W' ℕ) := by
  unfold failedStepChecker; mono_tac

theorem retryBody_mono {st' : ControlledStepper Q' W' S' T'}
    (hs : ∀ q x t d, C.Mono (st'.tryStep q x t d)) (s) : C.Mono (retryBody st' s) := by
  have := failedStepChecker_mono (C := C)
  unfold retryBody; mono_tac

theorem retryLoop_mono {st' : ControlledStepper Q' W' S' T'}
    (hs : ∀ q x t d, C.Mono (st'.tryStep q x t d)) (s) : C.Mono (retryLoop st' s) := by
  have := retryBody_mono (C := C) hs
  unfold retryLoop; mono_tac

theorem integrateAdaptiveControlled_mono {st' : ControlledStepper Q' W' S' T'}
    (hs : ∀ q x t d, C.Mono (st'.tryStep q x t d)) (ho : ∀ x t, C.Mono (obs' x t)) (q x t e d) :
    C.Mono (integrateAdaptiveControlled A' st' obs' q x t e d) := by
  have := retryLoop_mono (C := C) hs
  unfold integrateAdaptiveControlled; mono_tac

theorem nStepsControlledLoop_mono {st' : ControlledStepper Q' W' S' T'}
    (hs : ∀ q x t d, C.Mono (st'.tryStep q x t d)) (ho : ∀ x t, C.Mono (obs' x t)) (q start dt) :
    ∀ k j x t d, C.Mono (nStepsControlledLoop A' st' obs' q start dt k j x t d) := by
  intro k
  induction k with
  | zero => intros; exact Mono.pure _
  | succ k ih =>
    intro j x t d
    have := integrateAdaptiveControlled_mono (C := C) (A' := A') (obs' := nullObserver) hs
      (fun _ _ => Mono.pure _)
    unfold nStepsControlledLoop; mono_tac

/-- relation of the local variables of the retry loop -/
def AdaptRel (JR : Q → Q' → W → W' → Prop) (RS : S → S' → Prop) (RT RD : T → T' → Prop)
    (s : AdaptState Q S T) (s' : AdaptState Q' S' T') (w : W) (w' : W') : Prop :=
  JR s.q s'.q w w' ∧ RS s.x s'.x ∧ RT s.t s'.t ∧ RD s.dt s'.dt ∧ s.fails = s'.fails ∧
    s.success = s'.success

theorem failedStepChecker_sim {R : W → W' → Prop} (hE : ∀ w w', R w w' → C.RE w w') (m c : ℕ)
    {w : W} {w' : W'} (h : R w w') :
    C.Rel (fun a a' w w' => a = a' ∧ R w w') ((failedStepChecker m c : M W ℕ) w)
      ((failedStepChecker m c : M W' ℕ) w') := by
  unfold failedStepChecker
  split
  · exact .err (hE _ _ h)
  · exact .ok ⟨rfl, h⟩

theorem retryBody_sim {st : ControlledStepper Q W S T} {st' : ControlledStepper Q' W' S' T'}
    (hE : ∀ q q' w w', JR q q' w w' → C.RE w w')
    (hst : CtrlSim C JR RS RT RD st st') {s s' w w'} (h : AdaptRel JR RS RT RD s s' w w') :
    C.Rel (AdaptRel JR RS RT RD) (retryBody st s w) (retryBody st' s' w') := by
  have hm := hst.mono
  have := failedStepChecker_mono (C := C)
  obtain ⟨h1, h2, h3, h4, h5, h6⟩ := h
  unfold retryBody
  refine Rel.bind (hst.step h1 h2 h3 h4) ?_ (by mono_tac)
  rintro r r' w w' ⟨h1, h2, h3, h4, h7⟩
  rw [h5]
  refine Rel.bind (failedStepChecker_sim (R := fun w w' => JR r.q r'.q w w') (hE _ _) _ _ h1) ?_
    (by mono_tac)
  rintro c _ w w' ⟨rfl, h1⟩
  exact .ok ⟨h1, h2, h3, h4, rfl, h7⟩

theorem retryLoop_sim {st : ControlledStepper Q W S T} {st' : ControlledStepper Q' W' S' T'}
    (hE : ∀ q q' w w', JR q q' w w' → C.RE w w')
    (hst : CtrlSim C JR RS RT RD st st') {s s' w w'} (h : AdaptRel JR RS RT RD s s' w w') :
    C.Rel (AdaptRel JR RS RT RD) (retryLoop st s w) (retryLoop st' s' w') := by
  have hb := retryBody_mono (C := C) hst.mono
  unfold retryLoop
  refine Rel.bind (retryBody_sim hE hst h) ?_ (by mono_tac)
  intro s s' w w' h
  refine (Rel.whileM (R := AdaptRel JR RS RT RD) ?_ ?_ hb h).mono (fun _ _ _ _ h => h.1)
  · rintro s s' w w' h; rw [h.2.2.2.2.2]
  · rintro s s' w w' h _ _; exact retryBody_sim hE hst h

theorem integrateAdaptiveControlled_sim (hA : TimeRel A A' RT RD)
    {st : ControlledStepper Q W S T} {st' : ControlledStepper Q' W' S' T'}
    (hE : ∀ q q' w w', JR q q' w w' → C.RE w w')
    (hst : CtrlSim C JR RS RT RD st st') (hobs : ObsSim C JR RS RT obs obs')
    {q q' x x' t t' e e' d d' w w'}
    (hJ : JR q q' w w') (hx : RS x x') (ht : RT t t') (he : RT e e') (hd : RD d d') :
    C.Rel (fun r r' w w' => (∃ q q', JR q q' w w') ∧ RS r.x r'.x ∧ RT r.t r'.t ∧ RD r.dt r'.dt ∧
        r.count = r'.count)
      (integrateAdaptiveControlled A st obs q x t e d w)
      (integrateAdaptiveControlled A' st' obs' q' x' t' e' d' w') := by
  have hm := hst.mono
  have ho := hobs.mono
  have hr := retryLoop_mono (C := C) hm
  unfold integrateAdaptiveControlled
  refine Rel.bind (Rel.whileM
    (R := fun p p' w w' => AdaptRel JR RS RT RD p.1 p'.1 w w' ∧ p.2 = p'.2)
    ?_ ?_ (by mono_tac) ⟨⟨hJ, hx, ht, hd, rfl, rfl⟩, rfl⟩) ?_ (by mono_tac)
  · rintro ⟨s, n⟩ ⟨s', n'⟩ w w' ⟨⟨h1, h2, h3, h4, h5, h6⟩, h7⟩
    exact hA.less h3 he h4
  · rintro ⟨s, n⟩ ⟨s', n'⟩ w w' ⟨⟨h1, h2, h3, h4, h5, h6⟩, h7⟩ hc _
    simp only at h1 h2 h3 h4 h5 h6 h7 hc ⊢
    refine Rel.bind (hobs.call h1 h2 h3) ?_ (by mono_tac)
    intro _ _ w w' h1
    have hcl : RD (clipDt A s.t e s.dt) (clipDt A' s'.t e' s'.dt) := by
      unfold clipDt
      rw [hA.less he (hA.add h3 h4) h4]
      split
      · exact hA.sub h3 he h4 hc
      · exact h4
    refine Rel.bind (retryLoop_sim hE hst ⟨h1, h2, h3, hcl, h5, h6⟩) ?_ (by mono_tac)
    rintro s s' w w' ⟨h1, h2, h3, h4, h5, h6⟩
    exact .ok ⟨⟨h1, h2, h3, h4, rfl, h6⟩, by simp only [h7]⟩
  · rintro ⟨s, n⟩ ⟨s', n'⟩ w w' ⟨⟨⟨h1, h2, h3, h4, h5, h6⟩, h7⟩, _⟩
    simp only at h1 h2 h3 h4 h5 h6 h7 ⊢
    refine Rel.bind (hobs.call h1 h2 h3) ?_ (by mono_tac)
    intro _ _ w w' h1
    exact .ok ⟨⟨_, _, h1⟩, h2, h3, h4, h7⟩

theorem integrateNStepsControlled_sim (hA : TimeRel A A' RT RD)
    {st : ControlledStepper Q W S T} {st' : ControlledStepper Q' W' S' T'}
    (hE : ∀ q q' w w', JR q q' w w' → C.RE w w')
    (hst : CtrlSim C JR RS RT RD st st') (hobs : ObsSim C JR RS RT obs obs')
    {q q' x x' t t' d d' w w'} (n : ℕ)
    (hcopy : ∀ b b' w w', JR b b' w w' → JR q q' w w')
    (hJ : JR q q' w w') (hx : RS x x') (ht : RT t t') (hd : RD d d') :
    C.Rel (fun r r' w w' => (∃ q q', JR q q' w w') ∧ RS r.1 r'.1 ∧ RT r.2 r'.2)
      (integrateNStepsControlled A st obs q x t d n w)
      (integrateNStepsControlled A' st' obs' q' x' t' d' n w') := by
  have hm := hst.mono
  have ho := hobs.mono
  have hn := integrateAdaptiveControlled_mono (C := C) (A' := A') (obs' := nullObserver) hm
      (fun _ _ => Mono.pure _)
  have loop : ∀ k j x x' τ τ' δ δ' w w', JR q q' w w' → RS x x' → RT τ τ' → RD δ δ' →
      C.Rel (fun r r' w w' => JR q q' w w' ∧ RS r.1 r'.1 ∧ RT r.2 r'.2)
        (nStepsControlledLoop A st obs q t d k j x τ δ w)
        (nStepsControlledLoop A' st' obs' q' t' d' k j x' τ' δ' w') := by
    intro k
    induction k with
    | zero => intro j x x' τ τ' δ δ' w w' h1 h2 h3 h4; exact .ok ⟨h1, h2, h3⟩
    | succ k ih =>
      intro j x x' τ τ' δ δ' w w' h1 h2 h3 h4
      have hml := nStepsControlledLoop_mono (A' := A') (C := C) hm ho q' t' d' k
      unfold nStepsControlledLoop
      refine Rel.bind (hobs.call h1 h2 h3) ?_ (by mono_tac)
      intro _ _ w w' h1
      refine Rel.bind (integrateAdaptiveControlled_sim hA hE hst nullObserver_sim h1 h2 h3
        (hA.add h3 hd) h4) ?_ (by mono_tac)
      rintro r r' w w' ⟨⟨q1, q1', h1⟩, h2, h3, h4, -⟩
      exact ih _ _ _ _ _ _ _ _ _ (hcopy _ _ _ _ h1) h2 (hA.grid _ ht hd) h4
  unfold integrateNStepsControlled
  refine Rel.bind (loop n 0 x x' t t' d d' w w' hJ hx ht hd) ?_ (by mono_tac)
  rintro ⟨y, τ⟩ ⟨y', τ'⟩ w w' ⟨h1, h2, h3⟩
  refine Rel.bind (hobs.call h1 h2 h3) ?_ (by mono_tac)
  intro _ _ w w' h1
  exact .ok ⟨⟨_, _, h1⟩, h2, h3⟩

theorem integrateConstControlled_sim (hA : TimeRel A A' RT RD)
    {st : ControlledStepper Q W S T} {st' : ControlledStepper Q' W' S' T'}
    (hE : ∀ q q' w w', JR q q' w w' → C.RE w w')
    (hst : CtrlSim C JR RS RT RD st st') (hobs : ObsSim C JR RS RT obs obs')
    {q q' x x' t t' e e' d d' w w'}
    (hcopy : ∀ b b' w w', JR b b' w w' → JR q q' w w')
    (hJ : JR q q' w w') (hx : RS x x') (ht : RT t t') (he : RT e e') (hd : RD d d') :
    C.Rel (fun r r' w w' => (∃ q q', JR q q' w w') ∧ RS r.1 r'.1 ∧ r.2 = r'.2)
      (integrateConstControlled A st obs q x t e d w)
      (integrateConstControlled A' st' obs' q' x' t' e' d' w') := by
  have hm := hst.mono
  have ho := hobs.mono
  have hn := integrateAdaptiveControlled_mono (C := C) (A' := A') (obs' := nullObserver) hm
      (fun _ _ => Mono.pure _)
  unfold integrateConstControlled
  refine Rel.bind (Rel.whileM
    (R := fun s s' w w' => JR q q' w w' ∧ RS s.x s'.x ∧ RT s.time s'.time ∧ RD s.dt s'.dt ∧
      s.step = s'.step ∧ s.real = s'.real)
    ?_ ?_ (by mono_tac) ⟨hJ, hx, ht, hd, rfl, rfl⟩) ?_ (by mono_tac)
  · rintro s s' w w' ⟨_, _, h3, h4, _⟩
    exact hA.lessEq (hA.add h3 hd) he h4
  · rintro s s' w w' ⟨h1, h2, h3, h4, h5, h6⟩ _ _
    refine Rel.bind (hobs.call h1 h2 h3) ?_ (by mono_tac)
    intro _ _ w w' h1
    refine Rel.bind (integrateAdaptiveControlled_sim hA hE hst nullObserver_sim h1 h2 h3
      (hA.add h3 hd) h4) ?_ (by mono_tac)
    rintro r r' w w' ⟨⟨q1, q1', h1⟩, h2, h3, h4, h7⟩
    rw [h5, h6, h7]
    exact .ok ⟨hcopy _ _ _ _ h1, h2, hA.grid _ ht hd, h4, rfl, rfl⟩
  · rintro s s' w w' ⟨⟨h1, h2, h3, h4, h5, h6⟩, _⟩
    refine Rel.bind (hobs.call h1 h2 h3) ?_ (by mono_tac)
    intro _ _ w w' h1
    exact .ok ⟨⟨_, _, h1⟩, h2, h6⟩

/-! ## integrate_times -/

/-- relation of the local variables of `integrate_times` -/
def TimesRel (JR : Q → Q' → W → W' → Prop) (RS : S → S' → Prop) (RT RD : T → T' → Prop)
    (s : TimesState Q S T) (s' : TimesState Q' S' T') (w : W) (w' : W') : Prop :=
  JR s.q s'.q w w' ∧ RS s.x s'.x ∧ RT s.time s'.time ∧ RD s.dt s'.dt ∧ s.steps = s'.steps ∧
    s.fails = s'.fails

theorem timesBasicInner_mono {st' : BasicStepper Q' W' S' T'}
    (hs : ∀ q x t d, C.Mono (st'.doStep q x t d)) (d n s) :
    C.Mono (timesBasicInner A' st' d n s) := by
  unfold timesBasicInner; mono_tac

theorem timesBasicLoop_mono {st' : BasicStepper Q' W' S' T'}
    (hs : ∀ q x t d, C.Mono (st'.doStep q x t d)) (ho : ∀ x t, C.Mono (obs' x t)) (d) :
    ∀ l s, C.Mono (timesBasicLoop A' st' obs' d l s) := by
  have h := timesBasicInner_mono (C := C) (A' := A') hs
  intro l
  induction l with
  | nil => intro s; exact Mono.ub
  | cons a l ih =>
    intro s
    cases l with
    | nil => unfold timesBasicLoop; mono_tac
    | cons b l => unfold timesBasicLoop; mono_tac

theorem timesBasicInner_sim (hA : TimeRel A A' RT RD) {st : BasicStepper Q W S T}
    {st' : BasicStepper Q' W' S' T'} (hst : BasicSim C JR RS RT RD st st') {d d' e e'}
    (hd : RD d d') (he : RT e e') {s s' w w'} (h : TimesRel JR RS RT RD s s' w w') :
    C.Rel (TimesRel JR RS RT RD) (timesBasicInner A st d e s w)
      (timesBasicInner A' st' d' e' s' w') := by
  have hm := hst.mono
  unfold timesBasicInner
  refine (Rel.whileM (R := TimesRel JR RS RT RD) ?_ ?_ (by mono_tac) h).mono
    (fun _ _ _ _ h => h.1)
  · rintro s s' w w' ⟨h1, h2, h3, h4, h5⟩; exact hA.less h3 he h4
  · rintro s s' w w' ⟨h1, h2, h3, h4, h5, h6⟩ hc _
    have hδ := hA.minAbs hd (hA.sub h3 he h4 hc)
    refine Rel.bind (hst.step h1 h2 h3 hδ) ?_ (by mono_tac)
    rintro ⟨q1, x1⟩ ⟨q1', x1'⟩ w w' ⟨h1, h2⟩
    exact .ok ⟨h1, h2, hA.add h3 hδ, hδ, by simp only [h5], by simp only [h6]⟩

theorem timesBasicLoop_sim (hA : TimeRel A A' RT RD) {st : BasicStepper Q W S T}
    {st' : BasicStepper Q' W' S' T'} (hst : BasicSim C JR RS RT RD st st')
    (hobs : ObsSim C JR RS RT obs obs') {d d'} (hd : RD d d') :
    ∀ (l : List T) (l' : List T'), List.Forall₂ RT l l' → ∀ s s' w w',
      (JR s.q s'.q w w' ∧ RS s.x s'.x ∧ RD s.dt s'.dt ∧ s.steps = s'.steps ∧ s.fails = s'.fails) →
      C.Rel (fun r r' w w' => (∃ q q', JR q q' w w') ∧ RS r.1 r'.1 ∧ r.2 = r'.2)
        (timesBasicLoop A st obs d l s w) (timesBasicLoop A' st' obs' d' l' s' w') := by
  have hm := hst.mono
  have ho := hobs.mono
  have hi := timesBasicInner_mono (C := C) (A' := A') hm
  intro l
  induction l with
  | nil => rintro _ (_ | _) s s' w w' h; exact .ub
  | cons a l ih =>
    intro l' hl s s' w w' ⟨h1, h2, h3, h4, h5⟩
    cases hl with
    | cons ha hl =>
    rename_i a' l'
    cases hl with
    | nil =>
      unfold timesBasicLoop
      refine Rel.bind (hobs.call h1 h2 ha) ?_ (by mono_tac)
      intro _ _ w w' h1
      exact .ok ⟨⟨_, _, h1⟩, h2, h4⟩
    | cons hb hl =>
      rename_i b b' l l'
      have hlp := timesBasicLoop_mono (A' := A') hm ho d' (b' :: l')
      unfold timesBasicLoop
      refine Rel.bind (hobs.call h1 h2 ha) ?_ (by mono_tac)
      intro _ _ w w' h1
      refine Rel.bind (timesBasicInner_sim hA hst hd hb (w := w) (w' := w')
        (s := { s with time := a }) (s' := { s' with time := a' }) ⟨h1, h2, ha, h3, h4, h5⟩) ?_
        (by mono_tac)
      rintro s s' w w' ⟨h1, h2, h3, h4, h5, h6⟩
      exact ih _ (.cons hb hl) _ _ _ _ ⟨h1, h2, h4, h5, h6⟩

theorem integrateTimesBasic_sim (hA : TimeRel A A' RT RD) {st : BasicStepper Q W S T}
    {st' : BasicStepper Q' W' S' T'} (hst : BasicSim C JR RS RT RD st st')
    (hobs : ObsSim C JR RS RT obs obs') {q q' x x' d d' w w'} {l : List T} {l' : List T'}
    (hl : List.Forall₂ RT l l') (hJ : JR q q' w w') (hx : RS x x') (hd : RD d d') :
    C.Rel (fun r r' w w' => (∃ q q', JR q q' w w') ∧ RS r.1 r'.1 ∧ r.2 = r'.2)
      (integrateTimesBasic A st obs q x l d w) (integrateTimesBasic A' st' obs' q' x' l' d' w') :=
  timesBasicLoop_sim hA hst hobs hd l l' hl _ _ _ _ ⟨hJ, hx, hd, rfl, rfl⟩

theorem timesControlledBody_mono {st' : ControlledStepper Q' W' S' T'}
    (hs : ∀ q x t d, C.Mono (st'.tryStep q x t d)) (n s) :
    C.Mono (timesControlledBody A' st' n s) := by
  have := failedStepChecker_mono (C := C)
  unfold timesControlledBody; mono_tac

theorem timesControlledInner_mono {st' : ControlledStepper Q' W' S' T'}
    (hs : ∀ q x t d, C.Mono (st'.tryStep q x t d)) (n s) :
    C.Mono (timesControlledInner A' st' n s) := by
  have := timesControlledBody_mono (C := C) (A' := A') hs
  unfold timesControlledInner; mono_tac

theorem timesControlledLoop_mono {st' : ControlledStepper Q' W' S' T'}
    (hs : ∀ q x t d, C.Mono (st'.tryStep q x t d)) (ho : ∀ x t, C.Mono (obs' x t)) :
    ∀ l s, C.Mono (timesControlledLoop A' st' obs' l s) := by
  have h := timesControlledInner_mono (C := C) (A' := A') hs
  intro l
  induction l with
  | nil => intro s; exact Mono.ub
  | cons a l ih =>
    intro s
    cases l with
    | nil => unfold timesControlledLoop; mono_tac
    | cons b l => unfold timesControlledLoop; mono_tac

theorem timesControlledInner_sim (hA : TimeRel A A' RT RD) {st : ControlledStepper Q W S T}
    {st' : ControlledStepper Q' W' S' T'} (hE : ∀ q q' w w', JR q q' w w' → C.RE w w')
    (hst : CtrlSim C JR RS RT RD st st') {e e'}
    (he : RT e e') {s s' w w'} (h : TimesRel JR RS RT RD s s' w w') :
    C.Rel (TimesRel JR RS RT RD) (timesControlledInner A st e s w)
      (timesControlledInner A' st' e' s' w') := by
  have hm := hst.mono
  have hfc := failedStepChecker_mono (C := C)
  have hbm := timesControlledBody_mono (C := C) (A' := A') hm
  unfold timesControlledInner
  refine (Rel.whileM (R := TimesRel JR RS RT RD) ?_ ?_ (by mono_tac) h).mono
    (fun _ _ _ _ h => h.1)
  · rintro s s' w w' ⟨h1, h2, h3, h4, h5⟩; exact hA.less h3 he h4
  · rintro s s' w w' ⟨h1, h2, h3, h4, h5, h6⟩ hc _
    unfold timesControlledBody
    have hδ := hA.minAbs h4 (hA.sub h3 he h4 hc)
    refine Rel.bind (hst.step h1 h2 h3 hδ) ?_ (by mono_tac)
    rintro r r' w w' ⟨h1, h2, h3, h4', h7⟩
    rw [← h7]
    split
    · exact .ok ⟨h1, h2, h3, hA.maxAbs h4 h4', by simp only [h5], rfl⟩
    · rw [h6]
      refine Rel.bind (failedStepChecker_sim (R := fun w w' => JR r.q r'.q w w') (hE _ _) _ _ h1) ?_
        (by mono_tac)
      rintro c _ w w' ⟨rfl, h1⟩
      exact .ok ⟨h1, h2, h3, h4', h5, rfl⟩

theorem timesControlledLoop_sim (hA : TimeRel A A' RT RD) {st : ControlledStepper Q W S T}
    {st' : ControlledStepper Q' W' S' T'} (hE : ∀ q q' w w', JR q q' w w' → C.RE w w')
    (hst : CtrlSim C JR RS RT RD st st') (hobs : ObsSim C JR RS RT obs obs') :
    ∀ (l : List T) (l' : List T'), List.Forall₂ RT l l' → ∀ s s' w w',
      (JR s.q s'.q w w' ∧ RS s.x s'.x ∧ RD s.dt s'.dt ∧ s.steps = s'.steps ∧ s.fails = s'.fails) →
      C.Rel (fun r r' w w' => (∃ q q', JR q q' w w') ∧ RS r.1 r'.1 ∧ r.2 = r'.2)
        (timesControlledLoop A st obs l s w) (timesControlledLoop A' st' obs' l' s' w') := by
  have hm := hst.mono
  have ho := hobs.mono
  have hi := timesControlledInner_mono (C := C) (A' := A') hm
  intro l
  induction l with
  | nil => rintro _ (_ | _) s s' w w' h; exact .ub
  | cons a l ih =>
    intro l' hl s s' w w' ⟨h1, h2, h3, h4, h5⟩
    cases hl with
    | cons ha hl =>
    rename_i a' l'
    cases hl with
    | nil =>
      unfold timesControlledLoop
      refine Rel.bind (hobs.call h1 h2 ha) ?_ (by mono_tac)
      intro _ _ w w' h1
      exact .ok ⟨⟨_, _, h1⟩, h2, h4⟩
    | cons hb hl =>
      rename_i b b' l l'
      have hlp := timesControlledLoop_mono (A' := A') hm ho (b' :: l')
      unfold timesControlledLoop
      refine Rel.bind (hobs.call h1 h2 ha) ?_ (by mono_tac)
      intro _ _ w w' h1
      refine Rel.bind (timesControlledInner_sim hA hE hst hb (w := w) (w' := w')
        (s := { s with time := a }) (s' := { s' with time := a' }) ⟨h1, h2, ha, h3, h4, h5⟩) ?_
        (by mono_tac)
      rintro s s' w w' ⟨h1, h2, h3, h4, h5, h6⟩
      exact ih _ (.cons hb hl) _ _ _ _ ⟨h1, h2, h4, h5, h6⟩

theorem integrateTimesControlled_sim (hA : TimeRel A A' RT RD) {st : ControlledStepper Q W S T}
    {st' : ControlledStepper Q' W' S' T'} (hE : ∀ q q' w w', JR q q' w w' → C.RE w w')
    (hst : CtrlSim C JR RS RT RD st st')
    (hobs : ObsSim C JR RS RT obs obs') {q q' x x' d d' w w'} {l : List T} {l' : List T'}
    (hl : List.Forall₂ RT l l') (hJ : JR q q' w w') (hx : RS x x') (hd : RD d d') :
    C.Rel (fun r r' w w' => (∃ q q', JR q q' w w') ∧ RS r.1 r'.1 ∧ r.2 = r'.2)
      (integrateTimesControlled A st obs q x l d w)
      (integrateTimesControlled A' st' obs' q' x' l' d' w') :=
  timesControlledLoop_sim hA hE hst hobs l l' hl _ _ _ _ ⟨hJ, hx, hd, rfl, rfl⟩

end
end Verif
