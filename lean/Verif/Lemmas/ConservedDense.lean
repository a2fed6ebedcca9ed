import Verif.Lemmas.Conserved

/-! # Predicates kept by every step of a dense output stepper are kept by the integrate functions -/

namespace Verif
variable {W Q V K α σ : Type} {P : V → Prop} {l : Log V K}

theorem whileM_keeps_cond {cond : σ → Bool} {body : σ → M W σ} (I : σ → W → Prop) {E : W → Prop}
    (hbody : ∀ s w, cond s = true → I s w → (body s w).Keeps I E) {s : σ} {w : W} (h0 : I s w) :
    (whileM cond body s w).Keeps (fun s w => I s w ∧ cond s = false) E := by
  rcases whileM_div_or (cond := cond) (body := body) s w with ⟨n, hn⟩ | ⟨_, hd⟩
  · revert hn
    generalize whileM cond body s w = r
    induction n generalizing s w with
    | zero => intro hn; simp [whileF] at hn
    | succ n ih =>
      intro hn
      simp only [whileF] at hn
      split at hn
      · next hc =>
        have hb := hbody s w hc h0
        cases hbe : body s w with
        | ok s' w' => rw [hbe] at hn hb; exact ih hb hn
        | err e w' => rw [hbe] at hn hb; cases hn; exact hb
        | ub => rw [hbe] at hn; cases hn; trivial
        | div => rw [hbe] at hn; cases hn; trivial
      · next hc =>
        cases hn
        exact ⟨h0, by simpa using hc⟩
  · rw [hd]; trivial

theorem Res.Keeps.ite {c : Prop} [Decidable c] {a b : M W α} {w : W} {R : α → W → Prop} {E : W → Prop} (h1 : c → (a w).Keeps R E) (h2 : ¬ c → (b w).Keeps R E) :
    ((if c then a else b) w).Keeps R E := by
  by_cases h : c
  · rw [if_pos h]; exact h1 h
  · rw [if_neg h]; exact h2 h

/-- What a dense output stepper keeps: `J` after `initialize` from a state that satisfies `P`, `R` after `do_step`; `calc_state` may be used where `R` holds. -/
structure DenseKeeps (st : DenseStepper Q (W × Log V K) V K) (J R : Q → Prop) (P : V → Prop) : Prop where
  init : ∀ q x t dt w, P x → (st.init q x t dt w).Keeps (fun q' w' => J q' ∧ st.curTime q' = t ∧ st.curDt q' = dt ∧ w'.2 = w.2) fun w' => w'.2 = w.2
  step : ∀ q w, J q → (st.doStep q w).Keeps (fun q' w' => R q' ∧ w'.2 = w.2) fun w' => w'.2 = w.2
  interp : ∀ q t w, R q → (st.calcState q t w).Keeps (fun x w' => P x ∧ w'.2 = w.2) fun w' => w'.2 = w.2
  ready : ∀ q, R q → J q
  cur : ∀ q, J q → P (st.curState q)

section
variable {st : DenseStepper Q (W × Log V K) V K} {J R : Q → Prop}

theorem DenseKeeps.init' (h : DenseKeeps st J R P) (q : Q) {x : V} (t dt : K) {w : W × Log V K} (hx : P x) (hw : GoodLog P l w) :
    (st.init q x t dt w).Keeps (fun q' w' => (J q' ∧ st.curTime q' = t ∧ st.curDt q' = dt) ∧ GoodLog P l w') (GoodLog P l) :=
  (h.init q x t dt w hx).mono (fun _ _ h => ⟨⟨h.1, h.2.1, h.2.2.1⟩, hw.of_snd h.2.2.2⟩) fun _ h => hw.of_snd h

theorem DenseKeeps.step' (h : DenseKeeps st J R P) {q : Q} {w : W × Log V K} (hq : J q) (hw : GoodLog P l w) :
    (st.doStep q w).Keeps (fun q' w' => R q' ∧ GoodLog P l w') (GoodLog P l) :=
  (h.step q w hq).mono (fun _ _ h => ⟨h.1, hw.of_snd h.2⟩) fun _ h => hw.of_snd h

theorem DenseKeeps.interp' (h : DenseKeeps st J R P) {q : Q} (t : K) {w : W × Log V K} (hq : R q) (hw : GoodLog P l w) :
    (st.calcState q t w).Keeps (fun x w' => P x ∧ GoodLog P l w') (GoodLog P l) :=
  (h.interp q t w hq).mono (fun _ _ h => ⟨h.1, hw.of_snd h.2⟩) fun _ h => hw.of_snd h

theorem adaptiveDense_keeps (h : DenseKeeps st J R P) (A : TimeArith K) {q : Q} {x : V} {w : W × Log V K} (t t1 dt : K) (hx : P x) (hw : GoodLog P l w) :
    (integrateAdaptiveDense A st recordObserver q x t t1 dt w).Keeps (fun r w => P r.1 ∧ GoodLog P l w) (GoodLog P l) := by
  unfold integrateAdaptiveDense
  refine (h.init' q t dt hx hw).bind fun q w hq => ?_
  refine (whileM_keeps (fun (p : Q × ℕ) w => J p.1 ∧ GoodLog P l w) ?_ ⟨hq.1.1, hq.2⟩).bind ?_
  · rintro p w ⟨hq, hw⟩
    refine (whileM_keeps (fun (p : Q × ℕ) w => J p.1 ∧ GoodLog P l w) ?_ ⟨hq, hw⟩).bind ?_
    · rintro p w ⟨hq, hw⟩
      exact (recordObserver_keeps (h.cur _ hq) hw).bind fun _ w hw => (h.step' hq hw).bind fun q w hq => ⟨h.ready _ hq.1, hq.2⟩
    · rintro p w ⟨hq, hw⟩
      exact (h.init' _ _ _ (h.cur _ hq) hw).bind fun q w hq => ⟨hq.1.1, hq.2⟩
  · rintro p w ⟨hq, hw⟩
    exact (recordObserver_keeps (h.cur _ hq) hw).bind fun _ w hw => ⟨h.cur _ hq, hw⟩

theorem nStepsDense_keeps (h : DenseKeeps st J R P) (A : TimeArith K) {q : Q} {x : V} {w : W × Log V K} (t dt : K) (n : ℕ)
    (h0 : A.lessWithSign t t dt = false) (hx : P x) (hw : GoodLog P l w) :
    (integrateNStepsDense A st recordObserver q x t dt n w).Keeps (fun r w => P r.1 ∧ GoodLog P l w) (GoodLog P l) := by
  unfold integrateNStepsDense
  refine (h.init' q t dt hx hw).bind fun q w hq => ?_
  let I : DenseState Q V K → W × Log V K → Prop := fun s w =>
    (R s.q ∨ J s.q ∧ s.time = t ∧ st.curTime s.q = t ∧ st.curDt s.q = dt) ∧ P s.x ∧ GoodLog P l w
  have hJ : ∀ s w, I s w → J s.q := fun s w hI => hI.1.elim (h.ready _) fun h => h.1
  refine (whileM_keeps I ?_ ⟨.inr ⟨hq.1.1, rfl, hq.1.2⟩, hx, hq.2⟩).bind ?_
  · rintro s w hI
    refine (whileM_keeps_cond I ?_ hI).bind ?_
    · rintro s w hc ⟨hq, hx, hw⟩
      rcases hq with hq | ⟨-, e1, e2, e3⟩
      · refine (h.interp' _ hq hw).bind fun x w hx => (recordObserver_keeps hx.1 hx.2).bind fun _ w hw => ?_
        exact ⟨.inl hq, hx.1, hw⟩
      · rw [e1, e2, e3, h0] at hc
        cases hc
    · rintro s w ⟨hI, -⟩
      refine .ite (fun _ => ?_) fun _ => .ite (fun _ => ?_) fun _ => hI
      · exact (h.step' (hJ _ _ hI) hI.2.2).bind fun q w hq => ⟨.inl hq.1, hI.2.1, hq.2⟩
      · exact (h.init' _ _ _ (h.cur _ (hJ _ _ hI)) hI.2.2).bind fun q w hq =>
          (h.step' hq.1.1 hq.2).bind fun q w hq => ⟨.inl hq.1, hI.2.1, hq.2⟩
  · rintro s w hI
    refine (whileM_keeps (fun (s : DenseState Q V K) w => J s.q ∧ P s.x ∧ GoodLog P l w) ?_ ⟨hJ _ _ hI, hI.2⟩).bind ?_
    · rintro s w ⟨hq, hx, hw⟩
      refine .ite (fun _ => ?_) fun _ => ?_
      · exact (h.init' _ _ _ (h.cur _ hq) hw).bind fun q w hq => (h.step' hq.1.1 hq.2).bind fun q w hq => ⟨h.ready _ hq.1, hx, hq.2⟩
      · exact Res.Keeps.bind (R := fun q w => J q ∧ GoodLog P l w) ⟨hq, hw⟩ fun q w hq => (h.step' hq.1 hq.2).bind fun q w hq => ⟨h.ready _ hq.1, hx, hq.2⟩
    · rintro s w ⟨hq, hx, hw⟩
      exact (recordObserver_keeps (h.cur _ hq) hw).bind fun _ w hw => ⟨hx, hw⟩

theorem constDense_keeps (h : DenseKeeps st J R P) (A : TimeArith K) {q : Q} {x : V} {w : W × Log V K} (t t1 dt : K)
    (h0 : A.lessEqWithSign (A.add t dt) t dt = false) (h1 : A.lessEqWithSign t (A.add t dt) dt = true) (h2 : A.lessWithSign t t1 dt = true)
    (h3 : A.lessEqWithSign (A.add (A.add t dt) dt) t1 dt = true) (hx : P x) (hw : GoodLog P l w) :
    (integrateConstDense A st recordObserver q x t t1 dt w).Keeps (fun r w => P r.1 ∧ GoodLog P l w) (GoodLog P l) := by
  unfold integrateConstDense
  refine (h.init' q t dt hx hw).bind fun q w hq => (recordObserver_keeps hx hq.2).bind fun _ w hw => ?_
  let F : DenseState Q V K → Prop := fun s => J s.q ∧ s.time = A.add t dt ∧ st.curTime s.q = t ∧ st.curDt s.q = dt
  let I : DenseState Q V K → W × Log V K → Prop := fun s w => (R s.q ∨ F s) ∧ P s.x ∧ GoodLog P l w
  let I' : DenseState Q V K → W × Log V K → Prop := fun s w => R s.q ∧ P s.x ∧ GoodLog P l w
  have hJ : ∀ s, R s.q ∨ F s → J s.q := fun s hI => hI.elim (h.ready _) fun h => h.1
  refine (whileM_keeps_cond I ?_ ⟨.inr ⟨hq.1.1, rfl, hq.1.2⟩, hx, hw⟩).bind ?_
  · rintro s w - hI
    refine Res.Keeps.mono (R := I') ?_ (fun s w hs => ⟨.inl hs.1, hs.2⟩) fun _ h => h
    refine (whileM_keeps_cond I ?_ hI).bind ?_
    · rintro s w hc ⟨hq, hx, hw⟩
      rcases hq with hq | ⟨-, e1, e2, e3⟩
      · refine (h.interp' _ hq hw).bind fun x w hx => (recordObserver_keeps hx.1 hx.2).bind fun _ w hw => ?_
        exact ⟨.inl hq, hx.1, hw⟩
      · rw [e1, e2, h0] at hc
        cases hc
    · rintro s w ⟨⟨hq, hx, hw⟩, -⟩
      refine .ite (fun _ => ?_) fun _ => .ite (fun _ => ?_) fun hn => ?_
      · refine (whileM_keeps_cond I ?_ ⟨hq, hx, hw⟩).mono ?_ fun _ h => h
        · rintro s w - ⟨hq, hx, hw⟩
          exact (h.step' (hJ _ hq) hw).bind fun q w hq => ⟨.inl hq.1, hx, hq.2⟩
        · rintro s w ⟨⟨hq | ⟨-, e1, e2, e3⟩, hx, hw⟩, hc⟩
          · exact ⟨hq, hx, hw⟩
          · rw [e1, e2, h1] at hc
            cases hc
      · exact (h.init' _ _ _ (h.cur _ (hJ _ hq)) hw).bind fun q w hq => (h.step' hq.1.1 hq.2).bind fun q w hq => ⟨hq.1, hx, hq.2⟩
      · rcases hq with hq | ⟨-, e1, e2, e3⟩
        · exact ⟨hq, hx, hw⟩
        · rw [e2, e3, h2] at hn
          exact absurd rfl hn
  · rintro s w ⟨⟨hq, hx, hw⟩, hc⟩
    have hr : R s.q := by
      rcases hq with hq | ⟨-, e1, e2, e3⟩
      · exact hq
      · rw [e1, h3] at hc
        cases hc
    refine .ite (fun _ => ?_) fun _ => ⟨hx, hw⟩
    exact (h.interp' _ hr hw).bind fun x w hx => (recordObserver_keeps hx.1 hx.2).bind fun _ w hw => ⟨hx.1, hw⟩

theorem timesDense_keeps (h : DenseKeeps st J R P) (A : TimeArith K) {q : Q} {x : V} {w : W × Log V K} (times : List K) (dt : K)
    (h0 : ∀ t τ rest, times = t :: τ :: rest → A.lessEqWithSign τ t dt = false) (hx : P x) (hw : GoodLog P l w) :
    (integrateTimesDense A st recordObserver q x times dt w).Keeps (fun r w => P r.1 ∧ GoodLog P l w) (GoodLog P l) := by
  cases times with
  | nil => exact ⟨hx, hw⟩
  | cons t rest =>
    unfold integrateTimesDense
    refine (h.init' q t dt hx hw).bind fun q w hq => (recordObserver_keeps hx hq.2).bind fun _ w hw => ?_
    let I : DenseTimesState Q V K → W × Log V K → Prop := fun s w =>
      (R s.q ∨ J s.q ∧ s.rest = rest ∧ st.curTime s.q = t ∧ st.curDt s.q = dt) ∧ P s.x ∧ GoodLog P l w
    have hJ : ∀ s w, I s w → J s.q := fun s w hI => hI.1.elim (h.ready _) fun h => h.1
    refine (whileM_keeps I ?_ ⟨.inr ⟨hq.1.1, rfl, hq.1.2⟩, hx, hw⟩).bind fun s w hI => hI.2
    rintro s w hI
    unfold denseTimesBody
    refine (whileM_keeps_cond I ?_ hI).bind ?_
    · rintro ⟨q, x, ts, c⟩ w hc ⟨hq, hx, hw⟩
      cases ts with
      | nil => cases hc
      | cons τ ts =>
        rcases hq with hq | ⟨-, e1, e2, e3⟩
        · unfold denseTimesObserve
          exact (h.interp' _ hq hw).bind fun x w hx => (recordObserver_keeps hx.1 hx.2).bind fun _ w hw => ⟨.inl hq, hx.1, hw⟩
        · dsimp only [headLessEq] at hc e1 e2 e3
          rw [e2, e3, h0 t τ ts (by rw [e1])] at hc
          cases hc
    · rintro s w ⟨hI, -⟩
      refine .ite (fun _ => ?_) fun _ => .ite (fun _ => ?_) fun _ => hI
      · exact (h.step' (hJ _ _ hI) hI.2.2).bind fun q w hq => ⟨.inl hq.1, hI.2.1, hq.2⟩
      · exact (h.init' _ _ _ (h.cur _ (hJ _ _ hI)) hI.2.2).bind fun q w hq =>
          (h.step' hq.1.1 hq.2).bind fun q w hq => ⟨.inl hq.1, hI.2.1, hq.2⟩

theorem dense_conserves (h : DenseKeeps st J R P) : DenseConserves st P := fun A _ _ w _ hx =>
  ⟨fun t dt n h0 => throughout_of_keeps (nStepsDense_keeps h A t dt n h0 hx (.refl w)),
    fun t t1 dt h0 h1 h2 h3 => throughout_of_keeps (constDense_keeps h A t t1 dt h0 h1 h2 h3 hx (.refl w)),
    fun t t1 dt => throughout_of_keeps (adaptiveDense_keeps h A t t1 dt hx (.refl w)),
    fun times dt h0 => throughout_of_keeps (timesDense_keeps h A times dt h0 hx (.refl w))⟩

end
end Verif
