import Verif.Spec.Conserved

/-! # Predicates kept by every step are kept by the integrate functions -/

namespace Verif
variable {W Q S T V K α β σ : Type}

/-- After a return `R` holds, after an exception `E`. -/
def Res.Keeps (r : Res W α) (R : α → W → Prop) (E : W → Prop) : Prop :=
  match r with
  | .ok a w => R a w
  | .err _ w => E w
  | .ub => True
  | .div => True

theorem Res.Keeps.mono {r : Res W α} {R R' : α → W → Prop} {E E' : W → Prop} (h : r.Keeps R E) (hR : ∀ a w, R a w → R' a w) (hE : ∀ w, E w → E' w) :
    r.Keeps R' E' := by
  cases r with
  | ok a w => exact hR _ _ h
  | err e w => exact hE _ h
  | ub => trivial
  | div => trivial

theorem Res.Keeps.bind {m : M W α} {f : α → M W β} {w : W} {R : α → W → Prop} {R' : β → W → Prop} {E : W → Prop} (h : (m w).Keeps R E)
    (hf : ∀ a w', R a w' → (f a w').Keeps R' E) : ((m >>= f) w).Keeps R' E := by
  rw [M.bind_apply]
  cases hm : m w with
  | ok a w' => rw [hm] at h; exact hf a w' h
  | err e w' => rw [hm] at h; exact h
  | ub => trivial
  | div => trivial

theorem whileM_keeps {cond : σ → Bool} {body : σ → M W σ} (I : σ → W → Prop) {E : W → Prop}
    (hbody : ∀ s w, I s w → (body s w).Keeps I E) {s : σ} {w : W} (h0 : I s w) : (whileM cond body s w).Keeps I E := by
  rcases whileM_div_or (cond := cond) (body := body) s w with ⟨n, hn⟩ | ⟨_, hd⟩
  · revert hn
    generalize whileM cond body s w = r
    induction n generalizing s w with
    | zero => intro hn; simp [whileF] at hn
    | succ n ih =>
      intro hn
      simp only [whileF] at hn
      split at hn
      · have hb := hbody s w h0
        cases hbe : body s w with
        | ok s' w' => rw [hbe] at hn hb; exact ih hb hn
        | err e w' => rw [hbe] at hn hb; cases hn; exact hb
        | ub => rw [hbe] at hn; cases hn; trivial
        | div => rw [hbe] at hn; cases hn; trivial
      · cases hn
        exact h0
  · rw [hd]; trivial

/-- the part of the record made since the call satisfies `P` -/
def GoodLog (P : V → Prop) (l : Log V K) (w : W × Log V K) : Prop := ∃ o, w.2 = l ++ o ∧ ∀ x ∈ o.observations, P x.1

variable {P : V → Prop} {l : Log V K}

theorem GoodLog.refl (w : W) : GoodLog P l (w, l) := ⟨[], by simp, by simp [Log.observations]⟩

theorem GoodLog.of_snd {w w' : W × Log V K} (h : GoodLog P l w) (e : w'.2 = w.2) : GoodLog P l w' := by
  obtain ⟨o, h1, h2⟩ := h
  exact ⟨o, by rw [e, h1], h2⟩

theorem throughout_of_keeps {r : Res (W × Log V K) α} {state : α → V} (h : r.Keeps (fun a w => P (state a) ∧ GoodLog P l w) (GoodLog P l)) :
    Throughout P l state r := by
  cases r <;> exact h

theorem recordObserver_keeps {x : V} {t : K} {w : W × Log V K} (hx : P x) (hw : GoodLog P l w) :
    (recordObserver x t w).Keeps (fun _ w => GoodLog P l w) (GoodLog P l) := by
  obtain ⟨o, h1, h2⟩ := hw
  refine ⟨o ++ [.obs x t], by simp [h1], ?_⟩
  intro y hy
  simp only [Log.observations, List.filterMap_append, List.mem_append] at hy
  rcases hy with hy | hy
  · exact h2 y hy
  · simp only [List.filterMap_cons, List.filterMap_nil, List.mem_singleton] at hy
    rw [hy]; exact hx

/-! ## Plain steppers -/

/-- Every step from a state that satisfies `P` leads to one, and makes no observer calls; `J` is what the stepper needs to remember. -/
def StepKeeps (st : BasicStepper Q (W × Log V K) V K) (J : Q → V → Prop) (P : V → Prop) : Prop :=
  ∀ q x t dt w l, J q x → P x → (st.doStep q x t dt (w, l)).Keeps (fun r w' => J r.1 r.2 ∧ P r.2 ∧ w'.2 = l) fun w' => w'.2 = l

section
variable {st : BasicStepper Q (W × Log V K) V K} {J : Q → V → Prop}

theorem StepKeeps.step (h : StepKeeps st J P) {q x t dt} {w : W × Log V K} (hJ : J q x) (hx : P x) (hw : GoodLog P l w) :
    (st.doStep q x t dt w).Keeps (fun r w' => J r.1 r.2 ∧ P r.2 ∧ GoodLog P l w') (GoodLog P l) :=
  (h q x t dt w.1 w.2 hJ hx).mono (fun _ _ h => ⟨h.1, h.2.1, hw.of_snd h.2.2⟩) fun _ h => hw.of_snd h

theorem nSteps_keeps (h : StepKeeps st J P) (A : TimeArith K) (start dt : K) : ∀ (k i : ℕ) (s : NState Q V K) (w : W × Log V K),
    J s.q s.x → P s.x → GoodLog P l w →
    (nStepsBasicLoop A st recordObserver start dt k i s w).Keeps (fun s w => P s.x ∧ GoodLog P l w) (GoodLog P l) := by
  intro k
  induction k with
  | zero => intro i s w _ hx hw; exact ⟨hx, hw⟩
  | succ k ih =>
    intro i s w hJ hx hw
    refine (recordObserver_keeps hx hw).bind fun _ w hw => (h.step hJ hx hw).bind ?_
    rintro ⟨q, x⟩ w ⟨h1, h2, h3⟩
    exact ih _ _ _ h1 h2 h3

theorem const_keeps (h : StepKeeps st J P) (A : TimeArith K) {q x} {w : W × Log V K} (start t1 dt : K) (hJ : J q x) (hx : P x) (hw : GoodLog P l w) :
    (integrateConstBasic A st recordObserver q x start t1 dt w).Keeps (fun r w => P r.1 ∧ GoodLog P l w) (GoodLog P l) := by
  unfold integrateConstBasic
  refine (whileM_keeps (fun (s : ConstState Q V K) w => J s.q s.x ∧ P s.x ∧ GoodLog P l w) ?_ ⟨hJ, hx, hw⟩).bind ?_
  · rintro s w ⟨hJ, hx, hw⟩
    refine (recordObserver_keeps hx hw).bind fun _ w hw => (h.step hJ hx hw).bind ?_
    rintro ⟨q, x⟩ w h
    exact h
  · rintro s w ⟨hJ, hx, hw⟩
    exact (recordObserver_keeps hx hw).bind fun _ w hw => ⟨hx, hw⟩

theorem times_keeps (h : StepKeeps st J P) (A : TimeArith K) (dt : K) : ∀ (times : List K) (s : TimesState Q V K) (w : W × Log V K),
    J s.q s.x → P s.x → GoodLog P l w →
    (timesBasicLoop A st recordObserver dt times s w).Keeps (fun r w => P r.1 ∧ GoodLog P l w) (GoodLog P l) := by
  intro times
  induction times with
  | nil => intro _ _ _ _ _; trivial
  | cons t times ih =>
    intro s w hJ hx hw
    cases times with
    | nil => exact (recordObserver_keeps hx hw).bind fun _ w hw => ⟨hx, hw⟩
    | cons next rest =>
      refine (recordObserver_keeps hx hw).bind fun _ w hw =>
        Res.Keeps.bind (R := fun (s : TimesState Q V K) w => J s.q s.x ∧ P s.x ∧ GoodLog P l w) ?_ ?_
      · refine whileM_keeps _ ?_ ⟨hJ, hx, hw⟩
        rintro s w ⟨hJ, hx, hw⟩
        refine (h.step hJ hx hw).bind ?_
        rintro ⟨q, x⟩ w h
        exact h
      · rintro s w ⟨hJ, hx, hw⟩
        exact ih _ _ hJ hx hw

theorem basic_conserves {fresh : Q → Prop} (h : StepKeeps st J P) (hf : ∀ q x, fresh q → P x → J q x) : BasicConserves st fresh P := by
  intro A q x w l hq hx
  have hJ := hf q x hq hx
  refine ⟨fun t dt n => throughout_of_keeps ?_, fun t t1 dt => throughout_of_keeps (const_keeps h A t t1 dt hJ hx (.refl w)),
    fun t t1 dt => throughout_of_keeps ?_, fun times dt => throughout_of_keeps (times_keeps h A dt times _ _ hJ hx (.refl w))⟩
  · refine (nSteps_keeps h A t dt n 0 ⟨q, x, t⟩ _ hJ hx (.refl w)).bind ?_
    rintro s w ⟨hx, hw⟩
    exact (recordObserver_keeps hx hw).bind fun _ w hw => ⟨hx, hw⟩
  · refine (const_keeps h A t t1 dt hJ hx (.refl w)).bind ?_
    rintro ⟨x, n⟩ w ⟨hx, hw⟩
    dsimp only at hx ⊢
    split
    · refine (h.step (hf q x hq hx) hx hw).bind ?_
      rintro ⟨q', x⟩ w ⟨-, hx, hw⟩
      exact (recordObserver_keeps hx hw).bind fun _ w hw => ⟨hx, hw⟩
    · exact ⟨hx, hw⟩

end

/-! ## Controlled steppers -/

/-- The same for `try_step`. -/
def TryKeeps (st : ControlledStepper Q (W × Log V K) V K) (J : Q → V → Prop) (P : V → Prop) : Prop :=
  ∀ q x t dt w l, J q x → P x → (st.tryStep q x t dt (w, l)).Keeps (fun r w' => J r.q r.x ∧ P r.x ∧ w'.2 = l) fun w' => w'.2 = l

section
variable {st : ControlledStepper Q (W × Log V K) V K} {J : Q → V → Prop}

theorem TryKeeps.step (h : TryKeeps st J P) {q x t dt} {w : W × Log V K} (hJ : J q x) (hx : P x) (hw : GoodLog P l w) :
    (st.tryStep q x t dt w).Keeps (fun r w' => J r.q r.x ∧ P r.x ∧ GoodLog P l w') (GoodLog P l) :=
  (h q x t dt w.1 w.2 hJ hx).mono (fun _ _ h => ⟨h.1, h.2.1, hw.of_snd h.2.2⟩) fun _ h => hw.of_snd h

theorem failedStepChecker_keeps (m c : ℕ) {E : W → Prop} {w : W} (h : E w) : ((failedStepChecker m c : M W ℕ) w).Keeps (fun _ => E) E := by
  unfold failedStepChecker
  split
  · exact h
  · exact h

theorem retryBody_keeps (h : TryKeeps st J P) (s : AdaptState Q V K) (w : W × Log V K) (hs : J s.q s.x ∧ P s.x ∧ GoodLog P l w) :
    (retryBody st s w).Keeps (fun s w => J s.q s.x ∧ P s.x ∧ GoodLog P l w) (GoodLog P l) := by
  refine (h.step hs.1 hs.2.1 hs.2.2).bind fun r w hr => (failedStepChecker_keeps _ _ hr.2.2).bind fun _ w hw => ?_
  exact ⟨hr.1, hr.2.1, hw⟩

theorem adaptiveControlled_keeps (h : TryKeeps st J P) (A : TimeArith K) {obs : Observer (W × Log V K) V K}
    (hobs : ∀ x t w, P x → GoodLog P l w → (obs x t w).Keeps (fun _ w => GoodLog P l w) (GoodLog P l)) {q x} {w : W × Log V K} (t t1 dt : K)
    (hJ : J q x) (hx : P x) (hw : GoodLog P l w) :
    (integrateAdaptiveControlled A st obs q x t t1 dt w).Keeps (fun r w => P r.x ∧ GoodLog P l w) (GoodLog P l) := by
  unfold integrateAdaptiveControlled
  refine (whileM_keeps (fun (p : AdaptState Q V K × ℕ) w => J p.1.q p.1.x ∧ P p.1.x ∧ GoodLog P l w) ?_ ⟨hJ, hx, hw⟩).bind ?_
  · rintro p w ⟨hJ, hx, hw⟩
    refine (hobs _ _ _ hx hw).bind fun _ w hw => ?_
    refine Res.Keeps.bind (R := fun (s : AdaptState Q V K) w => J s.q s.x ∧ P s.x ∧ GoodLog P l w) ?_ fun s w hs => hs
    unfold retryLoop
    refine Res.Keeps.bind (retryBody_keeps h _ _ ?_) fun s w hs => whileM_keeps _ (retryBody_keeps h) hs
    exact ⟨hJ, hx, hw⟩
  · rintro ⟨s, c⟩ w ⟨hJ, hx, hw⟩
    exact (hobs _ _ _ hx hw).bind fun _ w hw => ⟨hx, hw⟩

theorem nullObserver_keeps (x : V) (t : K) (w : W × Log V K) (_ : P x) (hw : GoodLog P l w) :
    ((nullObserver x t : M _ Unit) w).Keeps (fun _ w => GoodLog P l w) (GoodLog P l) := hw

theorem timesControlled_keeps (h : TryKeeps st J P) (A : TimeArith K) : ∀ (times : List K) (s : TimesState Q V K) (w : W × Log V K),
    J s.q s.x → P s.x → GoodLog P l w →
    (timesControlledLoop A st recordObserver times s w).Keeps (fun r w => P r.1 ∧ GoodLog P l w) (GoodLog P l) := by
  intro times
  induction times with
  | nil => intro _ _ _ _ _; trivial
  | cons t times ih =>
    intro s w hJ hx hw
    cases times with
    | nil => exact (recordObserver_keeps hx hw).bind fun _ w hw => ⟨hx, hw⟩
    | cons next rest =>
      refine (recordObserver_keeps hx hw).bind fun _ w hw =>
        Res.Keeps.bind (R := fun (s : TimesState Q V K) w => J s.q s.x ∧ P s.x ∧ GoodLog P l w) ?_ ?_
      · refine whileM_keeps _ ?_ ⟨hJ, hx, hw⟩
        rintro s w ⟨hJ, hx, hw⟩
        refine (h.step hJ hx hw).bind ?_
        rintro r w ⟨hJ, hx, hw⟩
        split
        · exact ⟨hJ, hx, hw⟩
        · exact (failedStepChecker_keeps _ _ hw).bind fun _ w hw => ⟨hJ, hx, hw⟩
      · rintro s w ⟨hJ, hx, hw⟩
        exact ih _ _ hJ hx hw

theorem nStepsControlled_keeps (h : TryKeeps st J P) (A : TimeArith K) {q : Q} (hf : ∀ x, P x → J q x) (start dt : K) :
    ∀ (k i : ℕ) (x : V) (t d : K) (w : W × Log V K), P x → GoodLog P l w →
    (nStepsControlledLoop A st recordObserver q start dt k i x t d w).Keeps (fun r w => P r.1 ∧ GoodLog P l w) (GoodLog P l) := by
  intro k
  induction k with
  | zero => intro i x t d w hx hw; exact ⟨hx, hw⟩
  | succ k ih =>
    intro i x t d w hx hw
    refine (recordObserver_keeps hx hw).bind fun _ w hw =>
      (adaptiveControlled_keeps h A nullObserver_keeps _ _ _ (hf x hx) hx hw).bind fun r w hr => ?_
    exact ih _ _ _ _ _ hr.1 hr.2

theorem controlled_conserves {fresh : Q → Prop} (h : TryKeeps st J P) (hf : ∀ q x, fresh q → P x → J q x) : ControlledConserves st fresh P := by
  intro A q x w l hq hx
  have hJ := hf q x hq hx
  refine ⟨fun t dt n => throughout_of_keeps ?_, fun t t1 dt => throughout_of_keeps ?_,
    fun t t1 dt => throughout_of_keeps (adaptiveControlled_keeps h A (fun _ _ _ => recordObserver_keeps) _ _ _ hJ hx (.refl w)),
    fun times dt => throughout_of_keeps (timesControlled_keeps h A times _ _ hJ hx (.refl w))⟩
  · refine (nStepsControlled_keeps h A (fun x => hf q x hq) t dt n 0 x t dt _ hx (.refl w)).bind ?_
    rintro ⟨x, t⟩ w ⟨hx, hw⟩
    exact (recordObserver_keeps hx hw).bind fun _ w hw => ⟨hx, hw⟩
  · refine (whileM_keeps (fun (s : CtrlState V K) w => P s.x ∧ GoodLog P l w) ?_ ⟨hx, .refl w⟩).bind ?_
    · rintro s w ⟨hx, hw⟩
      refine (recordObserver_keeps hx hw).bind fun _ w hw =>
        (adaptiveControlled_keeps h A nullObserver_keeps _ _ _ (hf q _ hq hx) hx hw).bind fun r w hr => hr
    · rintro s w ⟨hx, hw⟩
      exact (recordObserver_keeps hx hw).bind fun _ w hw => ⟨hx, hw⟩

end
end Verif
