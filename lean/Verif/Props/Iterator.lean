import Verif.Lemmas.Iterator
import Verif.Lemmas.Observers
import Verif.Spec.Integrate
import Verif.Lemmas.RunEval

/-!
# C15: iterating a range is the same as passing an observer to the integrate function

`forEach obs begin` is the loop `for( auto it = begin ; it != end ; ++it ) obs( it->first , it->second )`.
-/

namespace Verif
variable {Q W S T : Type}

theorem eq_of_plain_rel {α α' β : Type} {f : α → β} {f' : α' → β} {m : M W α} {m' : M W α'} {w : W}
    (h : (plainCtx (Eq : W → W → Prop)).Rel (fun a a' w w' => f a = f' a' ∧ w = w') (m w) (m' w)) :
    (m >>= fun a => pure (f a)) w = (m' >>= fun a => pure (f' a)) w := by
  rw [M.bind_apply, M.bind_apply]
  generalize m w = r at h
  generalize m' w = r' at h
  cases h with
  | ok h => simp only [h.1, h.2]
  | err h => have h : _ = _ := h; simp only [h]
  | esc h _ => exact absurd h id
  | ub => rfl
  | div => rfl

theorem plain_rel_refl {α : Type} (r : Res W α) :
    (plainCtx (Eq : W → W → Prop)).Rel (fun a a' w w' => a = a' ∧ w = w') r r := by
  cases r with
  | ok a w => exact .ok ⟨rfl, rfl⟩
  | err e w => exact .err rfl
  | ub => exact .ub
  | div => exact .div

/-- C15 (`make_const_step_time_range`): for every stepper, every observer, and every kind of time
arithmetic, running the observer over the range has exactly the same effects and the same outcome
(including exceptions, undefined behaviour and non-termination) and leaves the same state as
`integrate_const`, unless the end lies before the start. -/
theorem const_step_range_eq_integrate (A : TimeArith T) (st : BasicStepper Q W S T) (obs : Observer W S T)
    (q : Q) (x : S) (t0 t1 dt : T) (h : A.lessWithSign t1 t0 dt = false) :
    (do let i ← (constIterator A st t0 t1 dt).forEach obs (constIteratorBegin A q x t0 t1 dt)
        return i.x) =
    (do let r ← integrateConstBasic A st obs q x t0 t1 dt
        return r.1 : M W S) := by
  funext w
  have key := SimCtx.Rel.rotate (C := plainCtx (Eq : W → W → Prop))
    (c := fun s : ConstState Q S T => A.lessEqWithSign (A.add s.time dt) t1 dt)
    (f := fun s => obs s.x s.time)
    (g := fun s => do
      let (q, x) ← st.doStep s.q s.x s.time dt
      return ⟨q, x, A.add t0 (A.nmul (s.step + 1) dt), s.step + 1⟩)
    (stop := (constIterator A st t0 t1 dt).atEnd)
    (body := fun i => do
      obs ((constIterator A st t0 t1 dt).deref i).1 ((constIterator A st t0 t1 dt).deref i).2
      (constIterator A st t0 t1 dt).increment i)
    (fun s i w w' => i = ⟨s.q, s.x, s.time, s.step, false⟩ ∧ w = w')
    (fun s i w w' => s.x = i.x ∧ w = w')
    (by rintro s _ w w' ⟨rfl, rfl⟩; rfl)
    (by
      rintro s _ w w' ⟨rfl, rfl⟩ hc
      refine SimCtx.Rel.bind (R := fun _ _ w w' => w = w') ((plain_rel_refl (obs s.x s.time w)).mono
        (fun _ _ _ _ h => h.2)) ?_ (fun _ => plainCtx_mono _ _)
      rintro _ _ w _ rfl
      simp only [constIterator, hc, if_true]
      refine SimCtx.Rel.bind (R := fun r r' w w' => r = r' ∧ w = w') (plain_rel_refl _) ?_
        (fun _ => plainCtx_mono _ _)
      rintro ⟨q, x⟩ _ w _ ⟨rfl, rfl⟩
      exact .ok ⟨rfl, rfl⟩)
    (by
      rintro s _ w w' ⟨rfl, rfl⟩ hc
      simp only [constIterator, hc]
      generalize hr : obs s.x s.time w = r
      cases r with
      | ok a w1 => rw [M.bind_ok hr]; exact .ok ⟨rfl, rfl, rfl⟩
      | err e w1 => rw [M.bind_err hr]; exact .err rfl
      | ub => rw [M.bind_ub hr]; exact .ub
      | div => rw [M.bind_div hr]; exact .div)
    (fun _ => plainCtx_mono _ _)
    (s := ⟨q, x, t0, 0⟩) (i := ⟨q, x, t0, 0, false⟩) (w := w) (w' := w) ⟨rfl, rfl⟩
  have hb : constIteratorBegin A q x t0 t1 dt = ⟨q, x, t0, 0, false⟩ := by
    simp [constIteratorBegin, h]
  rw [hb]
  refine (Eq.trans (eq_of_plain_rel (f := fun s : ConstState Q S T => s.x)
    (f' := fun i : ConstIter Q S T => i.x) key).symm ?_)
  simp only [integrateConstBasic, bind_assoc, pure_bind]

/-- C15: the range is empty (no observation, no step) if the end lies before the start. -/
theorem const_step_range_empty (A : TimeArith T) (st : BasicStepper Q W S T) (obs : Observer W S T)
    (q : Q) (x : S) (t0 t1 dt : T) (h : A.lessWithSign t1 t0 dt = true) (w : W) :
    (constIterator A st t0 t1 dt).forEach obs (constIteratorBegin A q x t0 t1 dt) w =
      .ok (constIteratorBegin A q x t0 t1 dt) w :=
  whileM_stop (by simp [constIterator, constIteratorBegin, h])

theorem nStep_forEach (A : TimeArith T) (st : BasicStepper Q W S T) (obs : Observer W S T)
    (t0 dt : T) (n : ℕ) (k : ℕ) : ∀ (step : ℕ) (s : NState Q S T), step + k = n →
    ((nStepIterator A st t0 dt n).forEach obs ⟨s.q, s.x, s.time, step, false⟩ >>= fun i =>
      (pure i.x : M W S)) =
    (nStepsBasicLoop A st obs t0 dt k step s >>= fun s => obs s.x s.time >>= fun _ => pure s.x) := by
  induction k with
  | zero =>
    intro step s hn
    unfold OdeIterator.forEach
    rw [whileM_true (by simp [nStepIterator])]
    have : ¬ step < n := by omega
    simp only [nStepIterator, nStepsBasicLoop, if_neg this, bind_assoc, pure_bind]
    congr 1
    funext _
    rw [whileM_false (by simp)]
    simp
  | succ k ih =>
    intro step s hn
    unfold OdeIterator.forEach
    rw [whileM_true (by simp [nStepIterator])]
    have : step < n := by omega
    simp only [nStepsBasicLoop, bind_assoc]
    congr 1
    funext _
    have hi : (nStepIterator A st t0 dt n).increment ⟨s.q, s.x, s.time, step, false⟩ =
      (st.doStep s.q s.x s.time dt >>= fun r =>
        pure ⟨r.1, r.2, A.add t0 (A.nmul (step + 1) dt), step + 1, false⟩) := by
      simp only [nStepIterator, if_pos this]
    rw [hi]
    simp only [bind_assoc, pure_bind]
    congr 1
    funext r
    exact ih (step + 1) ⟨r.1, r.2, A.add t0 (A.nmul (step + 1) dt)⟩ (by omega)

/-- C15 (`make_n_step_time_range`): for every stepper, observer, time arithmetic and every `n`, running the
observer over the range has exactly the same effects and outcome as `integrate_n_steps`. -/
theorem n_step_range_eq_integrate (A : TimeArith T) (st : BasicStepper Q W S T) (obs : Observer W S T)
    (q : Q) (x : S) (t0 dt : T) (n : ℕ) :
    (do let i ← (nStepIterator A st t0 dt n).forEach obs (nStepIteratorBegin q x t0)
        return i.x) =
    (do let r ← integrateNStepsBasic A st obs q x t0 dt n
        return r.1 : M W S) := by
  have := nStep_forEach A st obs t0 dt n n 0 ⟨q, x, t0⟩ (by omega)
  simp only [integrateNStepsBasic, bind_assoc, pure_bind]
  exact this

/-! ## Controlled steppers -/

/-- the left side may escape with `step_adjustment_error` -/
def attemptCtx (W : Type) : SimCtx W W where
  RE := Eq
  X e _ _ := e = .stepAdjustment
  E' _ _ := True
  refl _ := trivial
  trans _ _ := trivial

theorem attemptCtx_mono {β : Type} (m : M W β) : (attemptCtx W).Mono m := by
  constructor
  intro w'
  cases m w' <;> trivial

theorem attemptCtx_ext {β : Type} (w : W) (r : Res W β) : (attemptCtx W).Ext w r := by
  cases r <;> trivial

theorem attempt_refl {α : Type} (r : Res W α) :
    (attemptCtx W).Rel (fun a a' w w' => a = a' ∧ w = w') r r := by
  cases r with
  | ok a w => exact .ok ⟨rfl, rfl⟩
  | err e w => exact .err rfl
  | ub => exact .ub
  | div => exact .div

/-- corresponding states of the two retry loops -/
def TryRel (s : AdaptState Q S T) (i : AdaptIter Q S T) (w w' : W) : Prop :=
  i = ⟨s.q, s.x, s.t, s.dt, s.fails, s.success, false⟩ ∧ s.fails ≤ 500 ∧ w = w'

theorem retryBody_iter (st : ControlledStepper Q W S T) {s : AdaptState Q S T} {i : AdaptIter Q S T}
    {w w' : W} (h : TryRel s i w w') : (attemptCtx W).Rel TryRel (retryBody st s w) (iterTry st i w') := by
  obtain ⟨rfl, hf, rfl⟩ := h
  unfold retryBody iterTry
  refine SimCtx.Rel.bind (R := fun r r' w w' => r = r' ∧ w = w') (attempt_refl _) ?_
    (fun _ => attemptCtx_mono _)
  rintro r _ w _ ⟨rfl, rfl⟩
  unfold failedStepChecker defaultMaxSteps
  by_cases h5 : s.fails ≥ 500
  · simp only [if_pos h5]
    exact .esc (w0' := w) rfl (attemptCtx_ext _ _)
  · simp only [if_neg h5]
    exact .ok ⟨rfl, by simp only; omega, rfl⟩

theorem retryLoop_iter (st : ControlledStepper Q W S T) {s : AdaptState Q S T} {i : AdaptIter Q S T}
    {w w' : W} (h : TryRel { s with fails := 0 } { i with trials := 0 } w w') :
    (attemptCtx W).Rel TryRel (retryLoop st { s with fails := 0 } w) (iterTryLoop st i w') := by
  unfold retryLoop iterTryLoop
  refine SimCtx.Rel.bind (retryBody_iter st h) ?_ (fun _ => attemptCtx_mono _)
  intro s i w w' h
  have hw := SimCtx.Rel.whileM (C := attemptCtx W)
    (cond := fun s : AdaptState Q S T => !s.success) (body := retryBody st)
    (cond' := fun i : AdaptIter Q S T => !i.success && decide (i.trials < 1000)) (body' := iterTry st)
    TryRel
    (by rintro s _ w w' ⟨rfl, hf, rfl⟩; simp; omega)
    (fun s i w w' h _ _ => retryBody_iter st h) (fun _ => attemptCtx_mono _) h
  have := SimCtx.Rel.bind (f := pure) hw (S := TryRel)
    (f' := fun i => if i.trials = 1000 then M.throw .overflow else pure i) ?_ (fun _ => attemptCtx_mono _)
  · simpa using this
  · rintro s _ w _ ⟨⟨rfl, hf, rfl⟩, _⟩
    rw [if_neg (by simp only; omega)]
    exact .ok ⟨rfl, hf, rfl⟩

/-- C15 (`make_adaptive_time_range`, controlled steppers): for every controlled stepper, observer and time
arithmetic, if `integrate_adaptive` does not throw because of its limit on failed attempts, then running
the observer over the range has exactly the same effects and the same outcome. -/
theorem adaptive_range_eq_integrate (A : TimeArith T) (st : ControlledStepper Q W S T)
    (obs : Observer W S T) (q : Q) (x : S) (t0 t1 dt : T) (h : A.lessWithSign t1 t0 dt = false) (w : W)
    (hlim : ∀ w', integrateAdaptiveControlled A st obs q x t0 t1 dt w ≠ .err .stepAdjustment w') :
    (do let i ← (adaptiveIterator A st t1).forEach obs (adaptiveIteratorBegin A q x t0 t1 dt)
        return (i.x, i.t, i.dt) : M W (S × T × T)) w =
    (do let r ← integrateAdaptiveControlled A st obs q x t0 t1 dt
        return (r.x, r.t, r.dt)) w := by
  have key := SimCtx.Rel.rotate (C := attemptCtx W)
    (c := fun p : AdaptState Q S T × ℕ => A.lessWithSign p.1.t t1 p.1.dt)
    (f := fun p => obs p.1.x p.1.t)
    (g := fun p => do
      let s ← retryLoop st { p.1 with dt := clipDt A p.1.t t1 p.1.dt }
      return ({ s with fails := 0 }, p.2 + 1))
    (stop := (adaptiveIterator A st t1).atEnd)
    (body := fun i => do
      obs ((adaptiveIterator A st t1).deref i).1 ((adaptiveIterator A st t1).deref i).2
      (adaptiveIterator A st t1).increment i)
    (fun p i w w' => p.1.fails = 0 ∧ TryRel p.1 { i with trials := 0 } w w')
    (fun p i w w' => (p.1.x, p.1.t, p.1.dt) = (i.x, i.t, i.dt) ∧ w = w')
    (by
      rintro ⟨s, k⟩ ⟨iq, ix, it, id, itr, isu, ie⟩ w w' ⟨_, h, _⟩
      simp only [AdaptIter.mk.injEq] at h
      exact h.2.2.2.2.2.2)
    (by
      rintro ⟨⟨sq, sx, stt, sdt, sf, ss⟩, k⟩ ⟨iq, ix, it, id, itr, isu, ie⟩ w w' ⟨h0, h, h1, rfl⟩ hc
      simp only [AdaptIter.mk.injEq] at h h0
      obtain ⟨rfl, rfl, rfl, rfl, _, rfl, rfl⟩ := h
      subst h0
      simp only at hc
      refine SimCtx.Rel.bind (R := fun _ _ w w' => w = w') ((attempt_refl (obs ix it w)).mono
        (fun _ _ _ _ h => h.2)) ?_ (fun _ => attemptCtx_mono _)
      rintro _ _ w _ rfl
      simp only [adaptiveIterator, hc, if_true]
      have := retryLoop_iter st (s := ⟨iq, ix, it, clipDt A it t1 id, 0, isu⟩)
        (i := ⟨iq, ix, it, clipDt A it t1 id, itr, isu, false⟩) (w := w) (w' := w) ⟨rfl, by simp, rfl⟩
      have := SimCtx.Rel.bind (f' := pure) this (f := fun s => pure ({ s with fails := 0 }, k + 1))
        (S := fun (p : AdaptState Q S T × ℕ) i w w' => p.1.fails = 0 ∧ TryRel p.1 { i with trials := 0 } w w')
        ?_ (fun _ => attemptCtx_mono _)
      · simpa [clipDt] using this
      · rintro s _ w _ ⟨rfl, hf, rfl⟩
        exact .ok ⟨rfl, rfl, by simp, rfl⟩)
    (by
      rintro ⟨⟨sq, sx, stt, sdt, sf, ss⟩, k⟩ ⟨iq, ix, it, id, itr, isu, ie⟩ w w' ⟨h0, h, h1, rfl⟩ hc
      simp only [AdaptIter.mk.injEq] at h h0
      obtain ⟨rfl, rfl, rfl, rfl, _, rfl, rfl⟩ := h
      simp only at hc
      simp only [adaptiveIterator, hc]
      generalize hr : obs ix it w = r
      cases r with
      | ok a w1 => rw [M.bind_ok hr]; exact .ok ⟨rfl, rfl, rfl⟩
      | err e w1 => rw [M.bind_err hr]; exact .err rfl
      | ub => rw [M.bind_ub hr]; exact .ub
      | div => rw [M.bind_div hr]; exact .div)
    (fun _ => attemptCtx_mono _)
    (s := (⟨q, x, t0, dt, 0, true⟩, 0)) (i := ⟨q, x, t0, dt, 0, true, false⟩) (w := w) (w' := w)
    ⟨rfl, rfl, by simp, rfl⟩
  have hb : adaptiveIteratorBegin A q x t0 t1 dt = ⟨q, x, t0, dt, 0, true, false⟩ := by
    simp [adaptiveIteratorBegin, h]
  rw [hb]
  have hI : ∀ w', (whileM (fun p : AdaptState Q S T × ℕ => A.lessWithSign p.1.t t1 p.1.dt)
      (fun p => obs p.1.x p.1.t >>= fun _ => do
        let s ← retryLoop st { p.1 with dt := clipDt A p.1.t t1 p.1.dt }
        return ({ s with fails := 0 }, p.2 + 1)) (⟨q, x, t0, dt, 0, true⟩, 0) >>=
      fun p => obs p.1.x p.1.t >>= fun _ => pure p) w ≠ .err .stepAdjustment w' := by
    intro w' he
    apply hlim w'
    have := M.bind_err he (fun p => pure (⟨p.1.x, p.1.t, p.1.dt, p.2⟩ : AdaptResult S T))
    simpa [integrateAdaptiveControlled, bind_assoc] using this
  have hE : (integrateAdaptiveControlled A st obs q x t0 t1 dt >>= fun r =>
      (pure (r.x, r.t, r.dt) : M W (S × T × T))) w =
    ((whileM (fun p : AdaptState Q S T × ℕ => A.lessWithSign p.1.t t1 p.1.dt)
      (fun p => obs p.1.x p.1.t >>= fun _ => do
        let s ← retryLoop st { p.1 with dt := clipDt A p.1.t t1 p.1.dt }
        return ({ s with fails := 0 }, p.2 + 1)) (⟨q, x, t0, dt, 0, true⟩, 0) >>=
      fun p => obs p.1.x p.1.t >>= fun _ => pure p) >>= fun p => pure (p.1.x, p.1.t, p.1.dt)) w := by
    simp [integrateAdaptiveControlled, bind_assoc]
  rw [hE]
  unfold OdeIterator.forEach
  rw [M.bind_apply, M.bind_apply]
  revert key hI
  generalize (whileM (fun p : AdaptState Q S T × ℕ => A.lessWithSign p.1.t t1 p.1.dt)
      (fun p => obs p.1.x p.1.t >>= fun _ => do
        let s ← retryLoop st { p.1 with dt := clipDt A p.1.t t1 p.1.dt }
        return ({ s with fails := 0 }, p.2 + 1)) (⟨q, x, t0, dt, 0, true⟩, 0) >>=
      fun p => obs p.1.x p.1.t >>= fun _ => pure p) w = r
  generalize whileM _ _ (⟨q, x, t0, dt, 0, true, false⟩ : AdaptIter Q S T) w = r'
  intro key hI
  cases key with
  | ok h => simp only [h.1, h.2]
  | err h => have h : _ = _ := h; simp only [h]
  | esc h _ => have h : _ = _ := h; exact absurd (by rw [h]) (hI _)
  | ub => rfl
  | div => rfl

theorem adaptive_range_empty (A : TimeArith T) (st : ControlledStepper Q W S T) (obs : Observer W S T)
    (q : Q) (x : S) (t0 t1 dt : T) (h : A.lessWithSign t1 t0 dt = true) (w : W) :
    (adaptiveIterator A st t1).forEach obs (adaptiveIteratorBegin A q x t0 t1 dt) w =
      .ok (adaptiveIteratorBegin A q x t0 t1 dt) w :=
  whileM_stop (by simp [adaptiveIterator, adaptiveIteratorBegin, h])

/-- The hypotheses of `adaptive_range_eq_integrate` are met by an ordinary run: one trial of size `2` is
rejected, then two steps of size `1` are accepted. -/
example : ∃ r w', integrateAdaptiveControlled (TimeArith.exact ℚ 0)
    (⟨fun _ x t dt => if 1 < dt then pure ⟨(), x, t, dt / 2, false⟩ else pure ⟨(), x + dt, t + dt, dt, true⟩⟩ :
      ControlledStepper Unit (Log ℚ ℚ) ℚ ℚ) record () 0 0 2 2 [] = .ok r w' ∧
    w'.observations = [(0, 0), (1, 1), (2, 2)] := by
  apply exists_eval
  · unfold integrateAdaptiveControlled retryLoop retryBody clipDt failedStepChecker defaultMaxSteps
    run_eval
  · norm_num [Log.observations, TimeArith.exact, TimeArith.lessWithSign, List.filterMap_cons]

end Verif
