import Verif.Lemmas.IntegrateSim
import Mathlib.Data.List.Forall2

/-! # The dense output integrate functions preserve simulations -/

namespace Verif
open SimCtx

variable {W W' Q Q' S S' T T' : Type}

/-- Dense output steppers that preserve the relations (apart from the step size tests). -/
structure DenseSim (C : SimCtx W W') (JR : Q → Q' → W → W' → Prop) (RS : S → S' → Prop)
    (RT RD : T → T' → Prop) (st : DenseStepper Q W S T) (st' : DenseStepper Q' W' S' T') : Prop where
  init : ∀ {q q' x x' t t' d d' w w'}, JR q q' w w' → RS x x' → RT t t' → RD d d' →
    C.Rel JR (st.init q x t d w) (st'.init q' x' t' d' w')
  step : ∀ {q q' w w'}, JR q q' w w' → C.Rel JR (st.doStep q w) (st'.doStep q' w')
  calc_state : ∀ {q q' t t' w w'}, JR q q' w w' → RT t t' →
    C.Rel (fun x x' w w' => JR q q' w w' ∧ RS x x') (st.calcState q t w) (st'.calcState q' t' w')
  curState : ∀ {q q' w w'}, JR q q' w w' → RS (st.curState q) (st'.curState q')
  curTime : ∀ {q q' w w'}, JR q q' w w' → RT (st.curTime q) (st'.curTime q')
  curDt : ∀ {q q' w w'}, JR q q' w w' → RD (st.curDt q) (st'.curDt q')
  mono_init : ∀ q x t d, C.Mono (st'.init q x t d)
  mono_step : ∀ q, C.Mono (st'.doStep q)
  mono_calc : ∀ q t, C.Mono (st'.calcState q t)

section
variable {C : SimCtx W W'} {JR : Q → Q' → W → W' → Prop} {RS : S → S' → Prop}
  {RT RD : T → T' → Prop} {A : TimeArith T} {A' : TimeArith T'}
  {obs : Observer W S T} {obs' : Observer W' S' T'}
  {st : DenseStepper Q W S T} {st' : DenseStepper Q' W' S' T'}

/-- `integrate_adaptive`: the relations need only be preserved along the way, as described by the
hypotheses about the two loop tests (`JR` at the outer loop, `JR2` at the inner loop). -/
theorem integrateAdaptiveDense_sim {JR2 : Q → Q' → W → W' → Prop} {e e'}
    (hT1 : ∀ q q' w w', JR q q' w w' → A.lessWithSign (st.curTime q) e (st.curDt q) =
      A'.lessWithSign (st'.curTime q') e' (st'.curDt q'))
    (h12 : ∀ q q' w w', JR q q' w w' → A.lessWithSign (st.curTime q) e (st.curDt q) = true →
      JR2 q q' w w')
    (hT2 : ∀ q q' w w', JR2 q q' w w' →
      A.lessEqWithSign (A.add (st.curTime q) (st.curDt q)) e (st.curDt q) =
      A'.lessEqWithSign (A'.add (st'.curTime q') (st'.curDt q')) e' (st'.curDt q'))
    (hstep : ∀ q q' w w', JR2 q q' w w' →
      A.lessEqWithSign (A.add (st.curTime q) (st.curDt q)) e (st.curDt q) = true →
      C.Rel JR2 (st.doStep q w) (st'.doStep q' w'))
    (hinit : ∀ q q' w w', JR2 q q' w w' →
      A.lessEqWithSign (A.add (st.curTime q) (st.curDt q)) e (st.curDt q) = false →
      C.Rel JR (st.init q (st.curState q) (st.curTime q) (A.sub e (st.curTime q)) w)
        (st'.init q' (st'.curState q') (st'.curTime q') (A'.sub e' (st'.curTime q')) w'))
    (hobs : ∀ q q' w w', JR q q' w w' →
      C.Rel (fun _ _ w w' => JR q q' w w') (obs (st.curState q) (st.curTime q) w)
        (obs' (st'.curState q') (st'.curTime q') w'))
    (hobs2 : ∀ q q' w w', JR2 q q' w w' →
      C.Rel (fun _ _ w w' => JR2 q q' w w') (obs (st.curState q) (st.curTime q) w)
        (obs' (st'.curState q') (st'.curTime q') w'))
    (hRS : ∀ q q' w w', JR q q' w w' → RS (st.curState q) (st'.curState q'))
    (hmi : ∀ q x t d, C.Mono (st'.init q x t d)) (hms : ∀ q, C.Mono (st'.doStep q))
    (hmo : ∀ x t, C.Mono (obs' x t))
    {q q' x x' t t' d d' w w'}
    (h0 : C.Rel JR (st.init q x t d w) (st'.init q' x' t' d' w')) :
    C.Rel (fun r r' w w' => (∃ q q', JR q q' w w') ∧ RS r.1 r'.1 ∧ r.2 = r'.2)
      (integrateAdaptiveDense A st obs q x t e d w)
      (integrateAdaptiveDense A' st' obs' q' x' t' e' d' w') := by
  unfold integrateAdaptiveDense
  refine Rel.bind h0 ?_ (by mono_tac)
  intro q q' w w' hJ
  refine Rel.bind (Rel.whileM (R := fun p p' w w' => JR p.1 p'.1 w w' ∧ p.2 = p'.2)
    ?_ ?_ (by mono_tac) ⟨hJ, rfl⟩) ?_ (by mono_tac)
  · rintro ⟨q, n⟩ ⟨q', n'⟩ w w' ⟨h, _⟩; exact hT1 _ _ _ _ h
  · rintro ⟨q, n⟩ ⟨q', n'⟩ w w' ⟨h, hn⟩ hc1 _
    refine Rel.bind (Rel.whileM (R := fun p p' w w' => JR2 p.1 p'.1 w w' ∧ p.2 = p'.2)
      ?_ ?_ (by mono_tac) ⟨h12 _ _ _ _ h hc1, hn⟩) ?_ (by mono_tac)
    · rintro ⟨q, n⟩ ⟨q', n'⟩ w w' ⟨h, _⟩; exact hT2 _ _ _ _ h
    · rintro ⟨q, n⟩ ⟨q', n'⟩ w w' ⟨h, hn⟩ hc _
      refine Rel.bind (hobs2 _ _ _ _ h) ?_ (by mono_tac)
      intro _ _ w w' h
      refine Rel.bind (hstep _ _ _ _ h hc) ?_ (by mono_tac)
      intro q q' w w' h
      exact .ok ⟨h, by simp only at hn ⊢; rw [hn]⟩
    · rintro ⟨q, n⟩ ⟨q', n'⟩ w w' ⟨⟨h, hn⟩, hc, _⟩
      simp only at h hn hc ⊢
      refine Rel.bind (hinit _ _ _ _ h hc) ?_ (by mono_tac)
      intro q q' w w' h
      exact .ok ⟨h, hn⟩
  · rintro ⟨q, n⟩ ⟨q', n'⟩ w w' ⟨⟨h, hn⟩, _⟩
    simp only at h hn ⊢
    refine Rel.bind (hobs _ _ _ _ h) ?_ (by mono_tac)
    intro _ _ w w' h
    exact .ok ⟨⟨_, _, h⟩, hRS _ _ _ _ h, hn⟩

/-- relation of the local variables of the dense `integrate_n_steps` and `integrate_const` -/
def DenseStRel (JR : Q → Q' → W → W' → Prop) (RS : S → S' → Prop) (RT : T → T' → Prop)
    (s : DenseState Q S T) (s' : DenseState Q' S' T') (w : W) (w' : W') : Prop :=
  JR s.q s'.q w w' ∧ RS s.x s'.x ∧ RT s.time s'.time ∧ s.step = s'.step ∧ s.real = s'.real

theorem integrateConstDense_sim (hA : TimeRel A A' RT RD)
    (hst : DenseSim C JR RS RT RD st st') (hobs : ObsSim C JR RS RT obs obs')
    {q q' x x' t t' e e' d d' w w'}
    (h0 : C.Rel JR (st.init q x t d w) (st'.init q' x' t' d' w'))
    (hx : RS x x') (ht : RT t t') (he : RT e e') (hd : RD d d') :
    C.Rel (fun r r' w w' => (∃ q q', JR q q' w w') ∧ RS r.1 r'.1 ∧ r.2 = r'.2)
      (integrateConstDense A st obs q x t e d w)
      (integrateConstDense A' st' obs' q' x' t' e' d' w') := by
  have hmi := hst.mono_init
  have hms := hst.mono_step
  have hmc := hst.mono_calc
  have hmo := hobs.mono
  unfold integrateConstDense
  refine Rel.bind h0 ?_ (by mono_tac)
  intro q q' w w' hJ
  refine Rel.bind (hobs.call hJ hx ht) ?_ (by mono_tac)
  intro _ _ w w' hJ
  refine Rel.bind (Rel.whileM (R := DenseStRel JR RS RT) ?_ ?_ (by mono_tac)
    ⟨hJ, hx, hA.add ht hd, rfl, rfl⟩) ?_ (by mono_tac)
  · rintro s s' w w' ⟨_, _, h3, _⟩; exact hA.lessEq (hA.add h3 hd) he hd
  · rintro s s' w w' h _ _
    refine Rel.bind (Rel.whileM (R := DenseStRel JR RS RT) ?_ ?_ (by mono_tac) h) ?_ (by mono_tac)
    · rintro s s' w w' ⟨h1, _, h3, _⟩; exact hA.lessEq h3 (hst.curTime h1) hd
    · rintro s s' w w' ⟨h1, h2, h3, h4, h5⟩ _ _
      refine Rel.bind (hst.calc_state h1 h3) ?_ (by mono_tac)
      rintro y y' w w' ⟨h1, h2⟩
      refine Rel.bind (hobs.call h1 h2 h3) ?_ (by mono_tac)
      intro _ _ w w' h1
      exact .ok ⟨h1, h2, by simp only [h4]; exact hA.grid _ ht hd, by simp only [h4], h5⟩
    · rintro s s' w w' ⟨⟨h1, h2, h3, h4, h5⟩, _⟩
      have hct := hst.curTime h1
      have hcd := hst.curDt h1
      rw [← hA.less (hA.add hct hcd) he hcd, ← hA.less hct he hcd]
      split
      · refine (Rel.whileM (R := DenseStRel JR RS RT) ?_ ?_ (by mono_tac)
          ⟨h1, h2, h3, h4, h5⟩).mono (fun _ _ _ _ h => h.1)
        · rintro s s' w w' ⟨h1, _, h3, _⟩; exact hA.lessEq (hst.curTime h1) h3 hd
        · rintro s s' w w' ⟨h1, h2, h3, h4, h5⟩ _ _
          refine Rel.bind (hst.step h1) ?_ (by mono_tac)
          intro q q' w w' h1
          exact .ok ⟨h1, h2, h3, h4, by simp only [h5]⟩
      · split
        · rename_i hlt
          refine Rel.bind (hst.init h1 (hst.curState h1) hct (hA.sub hct he hcd hlt)) ?_ (by mono_tac)
          intro q q' w w' h1
          refine Rel.bind (hst.step h1) ?_ (by mono_tac)
          intro q q' w w' h1
          exact .ok ⟨h1, h2, h3, h4, by simp only [h5]⟩
        · exact .ok ⟨h1, h2, h3, h4, h5⟩
  · rintro s s' w w' ⟨⟨h1, h2, h3, h4, h5⟩, _⟩
    rw [← hA.lessEq h3 he hd]
    split
    · refine Rel.bind (hst.calc_state h1 h3) ?_ (by mono_tac)
      rintro y y' w w' ⟨h1, h2⟩
      refine Rel.bind (hobs.call h1 h2 h3) ?_ (by mono_tac)
      intro _ _ w w' h1
      exact .ok ⟨⟨_, _, h1⟩, h2, h5⟩
    · exact .ok ⟨⟨_, _, h1⟩, h2, h5⟩

/-- For `integrate_n_steps` the plain comparison and the unconditional subtraction must be preserved
as well. -/
theorem integrateNStepsDense_sim (hA : TimeRel A A' RT RD)
    (hlt : ∀ {a a' b b'}, RT a a' → RT b b' → A.lt a b = A'.lt a' b')
    (hsub : ∀ {a a' b b'}, RT a a' → RT b b' → RD (A.sub b a) (A'.sub b' a'))
    (hst : DenseSim C JR RS RT RD st st') (hobs : ObsSim C JR RS RT obs obs')
    {q q' x x' t t' d d' w w'} (n : ℕ)
    (h0 : C.Rel JR (st.init q x t d w) (st'.init q' x' t' d' w'))
    (hx : RS x x') (ht : RT t t') (hd : RD d d') :
    C.Rel (fun r r' w w' => (∃ q q', JR q q' w w') ∧ RS r.1 r'.1 ∧ RT r.2 r'.2)
      (integrateNStepsDense A st obs q x t d n w)
      (integrateNStepsDense A' st' obs' q' x' t' d' n w') := by
  have hmi := hst.mono_init
  have hms := hst.mono_step
  have hmc := hst.mono_calc
  have hmo := hobs.mono
  unfold integrateNStepsDense
  have he := hA.grid n ht hd
  refine Rel.bind h0 ?_ (by mono_tac)
  intro q q' w w' hJ
  refine Rel.bind (Rel.whileM (R := DenseStRel JR RS RT) ?_ ?_ (by mono_tac)
    ⟨hJ, hx, ht, rfl, rfl⟩) ?_ (by mono_tac)
  · rintro s s' w w' ⟨_, _, _, h4, _⟩; simp only [h4]
  · rintro s s' w w' h _ _
    refine Rel.bind (Rel.whileM (R := DenseStRel JR RS RT) ?_ ?_ (by mono_tac) h) ?_ (by mono_tac)
    · rintro s s' w w' ⟨h1, _, h3, _⟩; exact hA.less h3 (hst.curTime h1) (hst.curDt h1)
    · rintro s s' w w' ⟨h1, h2, h3, h4, h5⟩ _ _
      refine Rel.bind (hst.calc_state h1 h3) ?_ (by mono_tac)
      rintro y y' w w' ⟨h1, h2⟩
      refine Rel.bind (hobs.call h1 h2 h3) ?_ (by mono_tac)
      intro _ _ w w' h1
      exact .ok ⟨h1, h2, by simp only [h4]; exact hA.grid _ ht hd, by simp only [h4], h5⟩
    · rintro s s' w w' ⟨⟨h1, h2, h3, h4, h5⟩, _⟩
      have hct := hst.curTime h1
      have hcd := hst.curDt h1
      rw [← hA.less (hA.add hct hcd) he hcd, ← hA.less hct he hcd]
      split
      · refine Rel.bind (hst.step h1) ?_ (by mono_tac)
        intro q q' w w' h1
        exact .ok ⟨h1, h2, h3, h4, h5⟩
      · split
        · rename_i hlt
          refine Rel.bind (hst.init h1 (hst.curState h1) hct (hA.sub hct he hcd hlt)) ?_ (by mono_tac)
          intro q q' w w' h1
          refine Rel.bind (hst.step h1) ?_ (by mono_tac)
          intro q q' w w' h1
          exact .ok ⟨h1, h2, h3, h4, h5⟩
        · exact .ok ⟨h1, h2, h3, h4, h5⟩
  · rintro s s' w w' ⟨h, _⟩
    refine Rel.bind (Rel.whileM (R := DenseStRel JR RS RT) ?_ ?_ (by mono_tac) h) ?_ (by mono_tac)
    · rintro s s' w w' ⟨h1, _⟩; exact hlt (hst.curTime h1) he
    · rintro s s' w w' ⟨h1, h2, h3, h4, h5⟩ _ _
      have hct := hst.curTime h1
      have hcd := hst.curDt h1
      have fin : ∀ q q' w w', JR q q' w w' →
          C.Rel (DenseStRel JR RS RT)
            ((do let q ← st.doStep q; return { s with q := q } : M W (DenseState Q S T)) w)
            ((do let q ← st'.doStep q'; return { s' with q := q } : M W' (DenseState Q' S' T')) w') := by
        intro q q' w w' h1
        refine Rel.bind (hst.step h1) ?_ (by mono_tac)
        intro q q' w w' h1
        exact .ok ⟨h1, h2, h3, h4, h5⟩
      simp only
      rw [← hA.less he (hA.add hct hcd) hcd]
      split
      · exact Rel.bind (hst.init h1 (hst.curState h1) hct (hsub hct he)) fin (by mono_tac)
      · exact fin _ _ _ _ h1
    · rintro s s' w w' ⟨⟨h1, h2, h3, h4, h5⟩, _⟩
      refine Rel.bind (hobs.call h1 (hst.curState h1) he) ?_ (by mono_tac)
      intro _ _ w w' h1
      exact .ok ⟨⟨_, _, h1⟩, h2, h3⟩

/-- relation of the local variables of the dense `integrate_times`; `l` is the complete range -/
def DenseTimesRel (l : List T) (JR : Q → Q' → W → W' → Prop) (RS : S → S' → Prop)
    (RT : T → T' → Prop) (s : DenseTimesState Q S T) (s' : DenseTimesState Q' S' T') (w : W)
    (w' : W') : Prop :=
  JR s.q s'.q w w' ∧ RS s.x s'.x ∧ List.Forall₂ RT s.rest s'.rest ∧ s.count = s'.count ∧
    s.rest <:+ l

theorem forall₂_isEmpty {R : T → T' → Prop} {l : List T} {l' : List T'} (h : List.Forall₂ R l l') :
    l.isEmpty = l'.isEmpty := by cases h <;> rfl

theorem integrateTimesDense_sim {d d'} {t0 : T} {t0' : T'} {rest : List T} {rest' : List T'}
    (hT1 : ∀ q q' w w' τ τ', JR q q' w w' → RT τ τ' → τ ∈ rest →
      A.lessEqWithSign τ (st.curTime q) (st.curDt q) =
        A'.lessEqWithSign τ' (st'.curTime q') (st'.curDt q'))
    (hT2 : ∀ q q' w w', JR q q' w w' →
      A.lessEqWithSign (A.add (st.curTime q) (st.curDt q)) (rest.getLastD t0) (st.curDt q) =
      A'.lessEqWithSign (A'.add (st'.curTime q') (st'.curDt q')) (rest'.getLastD t0') (st'.curDt q'))
    (hstep : ∀ q q' w w', JR q q' w w' → C.Rel JR (st.doStep q w) (st'.doStep q' w'))
    (hcalc : ∀ q q' w w' τ τ', JR q q' w w' → RT τ τ' →
      C.Rel (fun x x' w w' => JR q q' w w' ∧ RS x x') (st.calcState q τ w) (st'.calcState q' τ' w'))
    (hinit : ∀ q q' w w' τ l, JR q q' w w' → (τ :: l) <:+ rest →
      A.lessEqWithSign τ (st.curTime q) (st.curDt q) = false →
      C.Rel JR (st.init q (st.curState q) (st.curTime q) (A.sub (rest.getLastD t0) (st.curTime q)) w)
        (st'.init q' (st'.curState q') (st'.curTime q')
          (A'.sub (rest'.getLastD t0') (st'.curTime q')) w'))
    (hobs : ObsSim C JR RS RT obs obs')
    (hmi : ∀ q x t d, C.Mono (st'.init q x t d)) (hms : ∀ q, C.Mono (st'.doStep q))
    (hmc : ∀ q t, C.Mono (st'.calcState q t))
    {q q' x x' w w'} (hx : RS x x') (ht : RT t0 t0') (hr : List.Forall₂ RT rest rest')
    (h0 : C.Rel JR (st.init q x t0 d w) (st'.init q' x' t0' d' w')) :
    C.Rel (fun r r' w w' => (∃ q q', JR q q' w w') ∧ RS r.1 r'.1 ∧ r.2 = r'.2)
      (integrateTimesDense A st obs q x (t0 :: rest) d w)
      (integrateTimesDense A' st' obs' q' x' (t0' :: rest') d' w') := by
  have hmo := hobs.mono
  have hmob : ∀ s, C.Mono (denseTimesObserve st' obs' s) := by
    intro s; unfold denseTimesObserve; mono_tac
  have hmb : ∀ a s, C.Mono (denseTimesBody A' st' obs' a s) := by
    intro a s; unfold denseTimesBody; mono_tac
  unfold integrateTimesDense
  refine Rel.bind h0 ?_ (by mono_tac)
  intro q q' w w' hJ
  refine Rel.bind (hobs.call hJ hx ht) ?_ (by mono_tac)
  intro _ _ w w' hJ
  refine Rel.bind (Rel.whileM (R := DenseTimesRel rest JR RS RT) ?_ ?_ (by mono_tac)
    ⟨hJ, hx, hr, rfl, List.suffix_rfl⟩) ?_ (by mono_tac)
  · rintro s s' w w' ⟨_, _, h3, _⟩; rw [forall₂_isEmpty h3]
  · rintro s s' w w' h _ _
    unfold denseTimesBody
    refine Rel.bind (Rel.whileM (R := DenseTimesRel rest JR RS RT) ?_ ?_ (by mono_tac) h) ?_
      (by mono_tac)
    · rintro ⟨q, x, l, n⟩ ⟨q', x', l', n'⟩ w w' ⟨h1, _, h3, _, h5⟩
      simp only at h1 h3 h5 ⊢
      cases h3 with
      | nil => rfl
      | cons ha hl => exact hT1 _ _ _ _ _ _ h1 ha (h5.subset (by simp))
    · rintro ⟨q, x, l, n⟩ ⟨q', x', l', n'⟩ w w' ⟨h1, h2, h3, h4, h5⟩ _ _
      simp only at h1 h2 h3 h4 h5
      unfold denseTimesObserve
      cases h3 with
      | nil => exact .ub
      | cons ha hl =>
        refine Rel.bind (hcalc _ _ _ _ _ _ h1 ha) ?_ (by mono_tac)
        rintro y y' w w' ⟨h1, h2⟩
        refine Rel.bind (hobs.call h1 h2 ha) ?_ (by mono_tac)
        intro _ _ w w' h1
        exact .ok ⟨h1, h2, hl, h4, (List.suffix_cons _ _).trans h5⟩
    · rintro ⟨q, x, l, n⟩ ⟨q', x', l', n'⟩ w w' ⟨⟨h1, h2, h3, h4, h5⟩, hc, _⟩
      simp only at h1 h2 h3 h4 h5 hc ⊢
      rw [← hT2 _ _ _ _ h1, ← forall₂_isEmpty h3]
      split
      · refine Rel.bind (hstep _ _ _ _ h1) ?_ (by mono_tac)
        intro q q' w w' h1
        exact .ok ⟨h1, h2, h3, by simp only [h4], h5⟩
      · split
        · cases h3 with
          | nil => simp_all
          | cons ha hl =>
            refine Rel.bind (hinit _ _ _ _ _ _ h1 h5 hc) ?_ (by mono_tac)
            intro q q' w w' h1
            refine Rel.bind (hstep _ _ _ _ h1) ?_ (by mono_tac)
            intro q q' w w' h1
            exact .ok ⟨h1, h2, .cons ha hl, by simp only [h4], h5⟩
        · exact .ok ⟨h1, h2, h3, h4, h5⟩
  · rintro s s' w w' ⟨⟨h1, h2, h3, h4, h5⟩, _⟩
    exact .ok ⟨⟨_, _, h1⟩, h2, h4⟩

end
end Verif
