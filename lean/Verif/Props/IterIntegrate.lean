import Verif.Model.IterIntegrate
import Verif.Props.Iterator
import Verif.Props.IteratorTimes
import Verif.Props.IteratorDense

/-! # C75: the integrate functions of `iterator/integrate` -/

namespace Verif
variable {Q W S T : Type}

theorem sizePred_succ (n : ℕ) : sizePred (n + 1) = n := by simp [sizePred]

/-- **C75** (`integrate_const`, plain steppers): the two versions have the same effects, leave the same state and return the same number, unless the end lies
before the start. -/
theorem iter_const_basic_eq (A : TimeArith T) (st : BasicStepper Q W S T) (obs : Observer W S T) (q : Q) (x : S) (t0 t1 dt : T)
    (h : A.lessWithSign t1 t0 dt = false) : iterConstBasic A st obs q x t0 t1 dt = integrateConstBasic A st obs q x t0 t1 dt := by
  funext w
  have key := SimCtx.Rel.rotate (C := plainCtx (Eq : W → W → Prop))
    (c := fun s : ConstState Q S T => A.lessEqWithSign (A.add s.time dt) t1 dt)
    (f := fun s => obs s.x s.time)
    (g := fun s => do
      let (q, x) ← st.doStep s.q s.x s.time dt
      return ⟨q, x, A.add t0 (A.nmul (s.step + 1) dt), s.step + 1⟩)
    (stop := fun p : ConstIter Q S T × ℕ => (constIterator A st t0 t1 dt).atEnd p.1)
    (body := fun p => do
      obs ((constIterator A st t0 t1 dt).deref p.1).1 ((constIterator A st t0 t1 dt).deref p.1).2
      let i ← (constIterator A st t0 t1 dt).increment p.1
      return (i, p.2 + 1))
    (fun s p w w' => p = (⟨s.q, s.x, s.time, s.step, false⟩, s.step) ∧ w = w')
    (fun s p w w' => (s.x, s.step) = (p.1.x, sizePred p.2) ∧ w = w')
    (by rintro s _ w w' ⟨rfl, rfl⟩; rfl)
    (by
      rintro s _ w w' ⟨rfl, rfl⟩ hc
      refine SimCtx.Rel.bind (R := fun _ _ w w' => w = w') ((plain_rel_refl (obs s.x s.time w)).mono
        (fun _ _ _ _ h => h.2)) ?_ (fun _ => plainCtx_mono _ _)
      rintro _ _ w _ rfl
      simp only [constIterator, hc, if_true, bind_assoc]
      refine SimCtx.Rel.bind (R := fun r r' w w' => r = r' ∧ w = w') (plain_rel_refl _) ?_
        (fun _ => plainCtx_mono _ _)
      rintro ⟨q, x⟩ _ w _ ⟨rfl, rfl⟩
      exact .ok ⟨rfl, rfl⟩)
    (by
      rintro s _ w w' ⟨rfl, rfl⟩ hc
      simp only [constIterator, hc]
      generalize hr : obs s.x s.time w = r
      cases r with
      | ok a w1 => rw [M.bind_ok hr]; exact .ok ⟨rfl, by simp only [sizePred_succ], rfl⟩
      | err e w1 => rw [M.bind_err hr]; exact .err rfl
      | ub => rw [M.bind_ub hr]; exact .ub
      | div => rw [M.bind_div hr]; exact .div)
    (fun _ => plainCtx_mono _ _)
    (s := ⟨q, x, t0, 0⟩) (i := (⟨q, x, t0, 0, false⟩, 0)) (w := w) (w' := w) ⟨rfl, rfl⟩
  have hb : constIteratorBegin A q x t0 t1 dt = ⟨q, x, t0, 0, false⟩ := by
    simp [constIteratorBegin, h]
  unfold iterConstBasic OdeIterator.forEachCounted
  rw [hb]
  refine (Eq.trans (eq_of_plain_rel (f := fun s : ConstState Q S T => (s.x, s.step))
    (f' := fun p : ConstIter Q S T × ℕ => (p.1.x, sizePred p.2)) key).symm ?_)
  simp only [integrateConstBasic, bind_assoc, pure_bind]

/-- **C75** (`integrate_adaptive`, plain steppers). -/
theorem iter_adaptive_basic_eq (A : TimeArith T) (st : BasicStepper Q W S T) (obs : Observer W S T) (q : Q) (x : S) (t0 t1 dt : T)
    (h : A.lessWithSign t1 t0 dt = false) : iterAdaptiveBasic A st obs q x t0 t1 dt = integrateAdaptiveBasic A st obs q x t0 t1 dt := by
  unfold iterAdaptiveBasic integrateAdaptiveBasic
  rw [iter_const_basic_eq A st obs q x t0 t1 dt h]

theorem nStep_forEachTimed (A : TimeArith T) (st : BasicStepper Q W S T) (obs : Observer W S T)
    (t0 dt : T) (n : ℕ) (k : ℕ) : ∀ (step : ℕ) (s : NState Q S T) (t : T), step + k = n →
    ((nStepIterator A st t0 dt n).forEachTimed obs ⟨s.q, s.x, s.time, step, false⟩ t >>= fun p =>
      (pure (p.1.x, p.2) : M W (S × T))) =
    (nStepsBasicLoop A st obs t0 dt k step s >>= fun s => obs s.x s.time >>= fun _ => pure (s.x, s.time)) := by
  induction k with
  | zero =>
    intro step s t hn
    unfold OdeIterator.forEachTimed
    rw [whileM_true (by simp [nStepIterator])]
    have : ¬ step < n := by omega
    simp only [nStepIterator, nStepsBasicLoop, if_neg this, bind_assoc, pure_bind]
    congr 1
    funext _
    rw [whileM_false (by simp)]
    simp
  | succ k ih =>
    intro step s t hn
    unfold OdeIterator.forEachTimed
    rw [whileM_true (by simp [nStepIterator])]
    have : step < n := by omega
    simp only [nStepsBasicLoop, bind_assoc]
    congr 1
    funext _
    have hi : (nStepIterator A st t0 dt n).increment ⟨s.q, s.x, s.time, step, false⟩ =
      (st.doStep s.q s.x s.time dt >>= fun r =>
        pure ⟨r.1, r.2, A.add t0 (A.nmul (step + 1) dt), step + 1, false⟩) := by
      simp only [nStepIterator, if_pos this]
    rw [hi]
    simp only [bind_assoc, pure_bind]
    congr 1
    funext r
    exact ih (step + 1) ⟨r.1, r.2, A.add t0 (A.nmul (step + 1) dt)⟩ _ (by omega)

/-- **C75** (`integrate_n_steps`, plain steppers). -/
theorem iter_n_steps_basic_eq (A : TimeArith T) (st : BasicStepper Q W S T) (obs : Observer W S T) (q : Q) (x : S) (t0 dt : T) (n : ℕ) :
    iterNStepsBasic A st obs q x t0 dt n = integrateNStepsBasic A st obs q x t0 dt n :=
  nStep_forEachTimed A st obs t0 dt n n 0 ⟨q, x, t0⟩ t0 (by omega)

/-- **C75** (`integrate_adaptive`, controlled steppers): the same effects, state and number of steps, if `integrate_adaptive` of `integrate/` does not
throw because of its limit on failed attempts. -/
theorem iter_adaptive_controlled_eq (A : TimeArith T) (st : ControlledStepper Q W S T) (obs : Observer W S T) (q : Q) (x : S) (t0 t1 dt : T)
    (h : A.lessWithSign t1 t0 dt = false) (w : W) (hlim : ∀ w', integrateAdaptiveControlled A st obs q x t0 t1 dt w ≠ .err .stepAdjustment w') :
    iterAdaptiveControlled A st obs q x t0 t1 dt w =
    (do let r ← integrateAdaptiveControlled A st obs q x t0 t1 dt
        return (r.x, r.count)) w := by
  have key := SimCtx.Rel.rotate (C := attemptCtx W)
    (c := fun p : AdaptState Q S T × ℕ => A.lessWithSign p.1.t t1 p.1.dt)
    (f := fun p => obs p.1.x p.1.t)
    (g := fun p => do
      let s ← retryLoop st { p.1 with dt := clipDt A p.1.t t1 p.1.dt }
      return ({ s with fails := 0 }, p.2 + 1))
    (stop := fun p : AdaptIter Q S T × ℕ => (adaptiveIterator A st t1).atEnd p.1)
    (body := fun p => do
      obs ((adaptiveIterator A st t1).deref p.1).1 ((adaptiveIterator A st t1).deref p.1).2
      let i ← (adaptiveIterator A st t1).increment p.1
      return (i, p.2 + 1))
    (fun p i w w' => i.2 = p.2 ∧ p.1.fails = 0 ∧ TryRel p.1 { i.1 with trials := 0 } w w')
    (fun p i w w' => (p.1.x, p.2) = (i.1.x, sizePred i.2) ∧ w = w')
    (by
      rintro ⟨s, k⟩ ⟨⟨iq, ix, it, id, itr, isu, ie⟩, n⟩ w w' ⟨_, _, h, _⟩
      simp only [AdaptIter.mk.injEq] at h
      exact h.2.2.2.2.2.2)
    (by
      rintro ⟨⟨sq, sx, stt, sdt, sf, ss⟩, k⟩ ⟨⟨iq, ix, it, id, itr, isu, ie⟩, n⟩ w w' ⟨hn, h0, h, h1, rfl⟩ hc
      simp only [AdaptIter.mk.injEq] at h h0 hn
      obtain ⟨rfl, rfl, rfl, rfl, _, rfl, rfl⟩ := h
      subst h0 hn
      simp only at hc
      refine SimCtx.Rel.bind (R := fun _ _ w w' => w = w') ((attempt_refl (obs ix it w)).mono
        (fun _ _ _ _ h => h.2)) ?_ (fun _ => attemptCtx_mono _)
      rintro _ _ w _ rfl
      simp only [adaptiveIterator, hc, if_true]
      have := retryLoop_iter st (s := ⟨iq, ix, it, clipDt A it t1 id, 0, isu⟩)
        (i := ⟨iq, ix, it, clipDt A it t1 id, itr, isu, false⟩) (w := w) (w' := w) ⟨rfl, by simp, rfl⟩
      have := SimCtx.Rel.bind (f' := fun i => pure (i, n + 1)) this (f := fun s => pure ({ s with fails := 0 }, n + 1))
        (S := fun (p : AdaptState Q S T × ℕ) i w w' => i.2 = p.2 ∧ p.1.fails = 0 ∧ TryRel p.1 { i.1 with trials := 0 } w w')
        ?_ (fun _ => attemptCtx_mono _)
      · simpa [clipDt] using this
      · rintro s _ w _ ⟨rfl, hf, rfl⟩
        exact .ok ⟨rfl, rfl, rfl, by simp, rfl⟩)
    (by
      rintro ⟨⟨sq, sx, stt, sdt, sf, ss⟩, k⟩ ⟨⟨iq, ix, it, id, itr, isu, ie⟩, n⟩ w w' ⟨hn, h0, h, h1, rfl⟩ hc
      simp only [AdaptIter.mk.injEq] at h h0 hn
      obtain ⟨rfl, rfl, rfl, rfl, _, rfl, rfl⟩ := h
      subst hn
      simp only at hc
      simp only [adaptiveIterator, hc]
      generalize hr : obs ix it w = r
      cases r with
      | ok a w1 => rw [M.bind_ok hr]; exact .ok ⟨rfl, by simp only [sizePred_succ], rfl⟩
      | err e w1 => rw [M.bind_err hr]; exact .err rfl
      | ub => rw [M.bind_ub hr]; exact .ub
      | div => rw [M.bind_div hr]; exact .div)
    (fun _ => attemptCtx_mono _)
    (s := (⟨q, x, t0, dt, 0, true⟩, 0)) (i := (⟨q, x, t0, dt, 0, true, false⟩, 0)) (w := w) (w' := w)
    ⟨rfl, rfl, rfl, by simp, rfl⟩
  have hb : adaptiveIteratorBegin A q x t0 t1 dt = ⟨q, x, t0, dt, 0, true, false⟩ := by
    simp [adaptiveIteratorBegin, h]
  unfold iterAdaptiveControlled OdeIterator.forEachCounted
  rw [hb]
  have hI : ∀ w', (whileM (fun p : AdaptState Q S T × ℕ => A.lessWithSign p.1.t t1 p.1.dt)
      (fun p => obs p.1.x p.1.t >>= fun _ => do
        let s ← retryLoop st { p.1 with dt := clipDt A p.1.t t1 p.1.dt }
        return ({ s with fails := 0 }, p.2 + 1)) (⟨q, x, t0, dt, 0, true⟩, 0) >>=
      fun p => obs p.1.x p.1.t >>= fun _ => pure p) w ≠ .err .stepAdjustment w' := by
    intro w' he
    apply hlim w'
    have := M.bind_err he (fun p => pure (⟨p.1.x, p.1.t, p.1.dt, p.2⟩ : AdaptResult S T))
    simpa [integrateAdaptiveControlled, bind_assoc] using this
  have hE : (integrateAdaptiveControlled A st obs q x t0 t1 dt >>= fun r =>
      (pure (r.x, r.count) : M W (S × ℕ))) w =
    ((whileM (fun p : AdaptState Q S T × ℕ => A.lessWithSign p.1.t t1 p.1.dt)
      (fun p => obs p.1.x p.1.t >>= fun _ => do
        let s ← retryLoop st { p.1 with dt := clipDt A p.1.t t1 p.1.dt }
        return ({ s with fails := 0 }, p.2 + 1)) (⟨q, x, t0, dt, 0, true⟩, 0) >>=
      fun p => obs p.1.x p.1.t >>= fun _ => pure p) >>= fun p => pure (p.1.x, p.2)) w := by
    simp [integrateAdaptiveControlled, bind_assoc]
  rw [hE]
  rw [M.bind_apply, M.bind_apply]
  revert key hI
  generalize (whileM (fun p : AdaptState Q S T × ℕ => A.lessWithSign p.1.t t1 p.1.dt)
      (fun p => obs p.1.x p.1.t >>= fun _ => do
        let s ← retryLoop st { p.1 with dt := clipDt A p.1.t t1 p.1.dt }
        return ({ s with fails := 0 }, p.2 + 1)) (⟨q, x, t0, dt, 0, true⟩, 0) >>=
      fun p => obs p.1.x p.1.t >>= fun _ => pure p) w = r
  generalize whileM _ _ ((⟨q, x, t0, dt, 0, true, false⟩, 0) : AdaptIter Q S T × ℕ) w = r'
  intro key hI
  cases key with
  | ok h => simp only [h.1, h.2]
  | err h => have h : _ = _ := h; simp only [h]
  | esc h _ => have h : _ = _ := h; exact absurd (by rw [h]) (hI _)
  | ub => rfl
  | div => rfl

/-! ## Where the two versions differ -/

/-- If the end lies before the start, nothing is observed and the returned number of steps is `2^64-1` (`integrate/integrate_const.hpp` observes the start and
returns `0`). -/
theorem iter_const_basic_empty (A : TimeArith T) (st : BasicStepper Q W S T) (obs : Observer W S T) (q : Q) (x : S) (t0 t1 dt : T)
    (h : A.lessWithSign t1 t0 dt = true) (w : W) : iterConstBasic A st obs q x t0 t1 dt w = .ok (x, 2 ^ 64 - 1) w := by
  unfold iterConstBasic OdeIterator.forEachCounted
  rw [M.bind_ok (whileM_stop (by simp [constIterator, constIteratorBegin, h]))]
  rfl

/-- The same for controlled steppers. -/
theorem iter_adaptive_controlled_empty (A : TimeArith T) (st : ControlledStepper Q W S T) (obs : Observer W S T) (q : Q) (x : S) (t0 t1 dt : T)
    (h : A.lessWithSign t1 t0 dt = true) (w : W) : iterAdaptiveControlled A st obs q x t0 t1 dt w = .ok (x, 2 ^ 64 - 1) w := by
  unfold iterAdaptiveControlled OdeIterator.forEachCounted
  rw [M.bind_ok (whileM_stop (by simp [adaptiveIterator, adaptiveIteratorBegin, h]))]
  rfl

/-- a second component of the loop state does not change a loop over a range -/
theorem forEach_with_fst {I β : Type} (it : OdeIterator I W S T) (f : Observer W S T) (u : I → β → β) (i : I) (b : β) (w : W) :
    (whileM (fun p : I × β => !it.atEnd p.1) (fun p => do
      f (it.deref p.1).1 (it.deref p.1).2
      let i ← it.increment p.1
      return (i, u p.1 p.2)) (i, b) >>= fun p => (pure p.1 : M W I)) w = it.forEach f i w := by
  have key := SimCtx.Rel.whileM (C := plainCtx (Eq : W → W → Prop)) (cond := fun p : I × β => !it.atEnd p.1)
    (body := fun p => do
      f (it.deref p.1).1 (it.deref p.1).2
      let i ← it.increment p.1
      return (i, u p.1 p.2))
    (cond' := fun i => !it.atEnd i)
    (body' := fun i => do
      f (it.deref i).1 (it.deref i).2
      it.increment i)
    (fun p i w w' => p.1 = i ∧ w = w') (by rintro p _ w _ ⟨rfl, rfl⟩; rfl)
    (by
      rintro p _ w _ ⟨rfl, rfl⟩ - -
      rw [M.bind_apply, M.bind_apply]
      cases f (it.deref p.1).1 (it.deref p.1).2 w with
      | ok a w1 =>
        dsimp only
        rw [M.bind_apply]
        cases it.increment p.1 w1 with
        | ok a w1 => exact .ok ⟨rfl, rfl⟩
        | err e w1 => exact .err rfl
        | ub => exact .ub
        | div => exact .div
      | err e w1 => exact .err rfl
      | ub => exact .ub
      | div => exact .div)
    (fun _ => plainCtx_mono _ _) (s := (i, b)) (s' := i) (w := w) (w' := w) ⟨rfl, rfl⟩
  have := eq_of_plain_rel (f := fun p : I × β => p.1) (f' := fun i => i) (m' := it.forEach f i) (w := w)
    (key.mono fun _ _ _ _ h => h.1)
  rw [this, bind_pure]

theorem forEachCounted_fst {I : Type} (it : OdeIterator I W S T) (f : Observer W S T) (i : I) (w : W) :
    (it.forEachCounted f i >>= fun p => (pure p.1 : M W I)) w = it.forEach f i w := forEach_with_fst it f (fun _ n => n + 1) i 0 w

theorem forEachTimed_fst {I : Type} (it : OdeIterator I W S T) (f : Observer W S T) (i : I) (t : T) (w : W) :
    (it.forEachTimed f i t >>= fun p => (pure p.1 : M W I)) w = it.forEach f i w := forEach_with_fst it f (fun i _ => (it.deref i).2) i t w

theorem forEachCounted_ok {I : Type} {it : OdeIterator I W S T} {f : Observer W S T} {i : I} {w w' : W} {p : I × ℕ} (h : it.forEachCounted f i w = .ok p w') :
    it.forEach f i w = .ok p.1 w' := by
  rw [← forEachCounted_fst, M.bind_ok h]
  rfl

/-- **C75** (`integrate_const`, dense output steppers): the version on top of the iterators does the same as a loop over `make_const_step_time_range`
(whose observations are those of `const_step_range_dense_spec`) and leaves the state of the last observation. -/
theorem iter_const_dense_eq (A : TimeArith T) (st : DenseStepper Q W S T) (obs : Observer W S T) (q : Q) (x : S) (t0 t1 dt : T) (w : W) :
    (iterConstDense A st obs q x t0 t1 dt >>= fun r => (pure r.1 : M W S)) w =
      (constDenseIteratorBegin A st q x t0 t1 dt >>= fun b => (constDenseIterator A st t0 t1 dt).forEach obs b >>= fun i => pure i.x) w := by
  unfold iterConstDense
  simp only [bind_assoc, pure_bind]
  rw [M.bind_apply, M.bind_apply]
  cases constDenseIteratorBegin A st q x t0 t1 dt w with
  | ok b w1 =>
    dsimp only
    rw [M.bind_apply (m := OdeIterator.forEach _ _ _), ← forEachCounted_fst, M.bind_apply, M.bind_apply]
    cases OdeIterator.forEachCounted (constDenseIterator A st t0 t1 dt) obs b w1 <;> rfl
  | err e w1 => rfl
  | ub => rfl
  | div => rfl

/-- **C75** (`integrate_n_steps`, dense output steppers): the same with `make_n_step_time_range` (`n_step_range_dense_spec`). -/
theorem iter_n_steps_dense_eq (A : TimeArith T) (st : DenseStepper Q W S T) (obs : Observer W S T) (q : Q) (x : S) (t0 dt : T) (n : ℕ) (w : W) :
    (iterNStepsDense A st obs q x t0 dt n >>= fun r => (pure r.1 : M W S)) w =
      (nStepDenseIteratorBegin st q x t0 dt >>= fun b => (nStepDenseIterator A st t0 dt n).forEach obs b >>= fun i => pure i.x) w := by
  unfold iterNStepsDense
  simp only [bind_assoc, pure_bind]
  rw [M.bind_apply, M.bind_apply]
  cases nStepDenseIteratorBegin st q x t0 dt w with
  | ok b w1 =>
    dsimp only
    rw [M.bind_apply (m := OdeIterator.forEach _ _ _), ← forEachTimed_fst _ _ _ t0, M.bind_apply, M.bind_apply]
    cases OdeIterator.forEachTimed (nStepDenseIterator A st t0 dt n) obs b t0 w1 <;> rfl
  | err e w1 => rfl
  | ub => rfl
  | div => rfl

/-- **C75** (`integrate_times`, plain steppers): the same effects and the same state, with exact comparisons. -/
theorem iter_times_basic_eq {K : Type} [Field K] [LinearOrder K] [IsStrictOrderedRing K] (st : BasicStepper Q W S K) (obs : Observer W S K) (q : Q) (x : S)
    (times : List K) (dt : K) (hdt : dt ≠ 0) (hm : MonotoneTimes dt times) (w : W) :
    (iterTimesBasic (TimeArith.exact K 0) st obs q x times dt >>= fun r => (pure r.1 : M W S)) w =
      (integrateTimesBasic (TimeArith.exact K 0) st obs q x times dt >>= fun r => pure r.1) w := by
  have := congrFun (times_range_eq_integrate st obs q x times dt hdt hm) w
  rw [← this]
  unfold iterTimesBasic
  simp only [bind_assoc, pure_bind]
  rw [M.bind_apply, M.bind_apply]
  cases timesIteratorBegin q x times dt w with
  | ok b w1 =>
    dsimp only
    rw [M.bind_apply (m := OdeIterator.forEach _ _ _), ← forEachCounted_fst, M.bind_apply, M.bind_apply]
    cases OdeIterator.forEachCounted (timesIterator (TimeArith.exact K 0) st) obs b w1 <;> rfl
  | err e w1 => rfl
  | ub => rfl
  | div => rfl

/-- `integrate_times` returns the number of intervals between the times and not the number of steps: two steps to reach the only time after the start, and
the number returned is `1`, that of `integrate/integrate_times.hpp` is `2`. -/
theorem iter_times_count_differs :
    (∃ r w', iterTimesBasic (TimeArith.exact ℚ 0) (⟨fun _ x _ dt => pure ((), x + dt)⟩ : BasicStepper Unit (Log ℚ ℚ) ℚ ℚ) record () 0 [0, 2] 1 [] = .ok r w' ∧
      r = (2, 1)) ∧
    (∃ r w', integrateTimesBasic (TimeArith.exact ℚ 0) (⟨fun _ x _ dt => pure ((), x + dt)⟩ : BasicStepper Unit (Log ℚ ℚ) ℚ ℚ) record () 0 [0, 2] 1 [] = .ok r w' ∧
      r = (2, 2)) := by
  constructor
  · apply exists_eval
    · unfold iterTimesBasic timesIteratorBegin OdeIterator.forEachCounted timesIterator
      run_eval
    · norm_num [TimeArith.exact, TimeArith.minAbs, TimeArith.stdMin, sizePred]
  · apply exists_eval
    · unfold integrateTimesBasic timesBasicLoop timesBasicInner timesBasicLoop
      run_eval
    · norm_num [TimeArith.exact, TimeArith.minAbs, TimeArith.stdMin]

/-- **C75** (`integrate_adaptive`, dense output steppers): in exact arithmetic the observer calls are those of `integrate/integrate_adaptive.hpp`; but
`start_state` keeps the state at the start, where the other version stores the state at the end. -/
theorem iter_adaptive_dense_partial {K : Type} [Field K] [LinearOrder K] [IsStrictOrderedRing K] [Archimedean K] (eps : K) (heps : 0 ≤ eps) (p : PureDense Q S K)
    (hp : DenseContract p) (hbig : ∀ q q', p.doStep q = .ok q' → p.curDt q ≠ 0 → 2 * eps < |p.curDt q'|) (q : Q) (x : S) (t0 t1 dt : K) (hdt0 : dt ≠ 0)
    (hdt : 2 * eps < |dt|) (h0 : ¬ Beyond eps dt t0 t1) (w w1 w2 : Log S K) (r r' : S × ℕ)
    (hr : integrateAdaptiveDense (TimeArith.exact K eps) (loggedDense p) record q x t0 t1 dt w = .ok r w1)
    (hi : iterAdaptiveDense (TimeArith.exact K eps) (loggedDense p) record q x t0 t1 dt w = .ok r' w2) :
    w1.observations = w2.observations ∧ r'.1 = x := by
  unfold iterAdaptiveDense at hi
  rw [M.bind_apply] at hi
  cases hb : adaptiveDenseIteratorBegin (TimeArith.exact K eps) (loggedDense p) q x t0 t1 dt w with
  | ok b w3 =>
    rw [hb] at hi
    dsimp only at hi
    rw [M.bind_apply] at hi
    cases hf : OdeIterator.forEachCounted (adaptiveDenseIterator (TimeArith.exact K eps) (loggedDense p) t1) record b w3 with
    | ok i w4 =>
      rw [hf] at hi
      cases hi
      have := forEachCounted_ok hf
      refine ⟨(adaptive_range_dense_eq_integrate eps heps p hp hbig q x t0 t1 dt hdt0 hdt h0 w w1 w2 r i.1 hr ?_).1, rfl⟩
      rw [M.bind_ok hb, this]
    | err e w4 => rw [hf] at hi; cases hi
    | ub => rw [hf] at hi; cases hi
    | div => rw [hf] at hi; cases hi
  | err e w3 => rw [hb] at hi; cases hi
  | ub => rw [hb] at hi; cases hi
  | div => rw [hb] at hi; cases hi

/-- The hypotheses are met by the stepper `rampDense`, and the two versions return different states: `0` and `4`. -/
theorem iter_adaptive_dense_differs :
    (∃ r w', iterAdaptiveDense (TimeArith.exact ℚ 0) (loggedDense (rampDense (3/2 : ℚ))) record (0, 0, 0) 0 0 4 1 [] = .ok r w' ∧ r = (0, 3) ∧
      w'.observations = [(0, 0), (1, 1), (5/2, 5/2), (4, 4)]) ∧
    (∃ r w', integrateAdaptiveDense (TimeArith.exact ℚ 0) (loggedDense (rampDense (3/2 : ℚ))) record (0, 0, 0) 0 0 4 1 [] = .ok r w' ∧ r = (4, 3) ∧
      w'.observations = [(0, 0), (1, 1), (5/2, 5/2), (4, 4)]) := by
  constructor
  · apply exists_eval
    · unfold iterAdaptiveDense adaptiveDenseIteratorBegin OdeIterator.forEachCounted adaptiveDenseIterator
      run_eval
    · norm_num [Log.observations, rampDense, loggedDense, TimeArith.exact, List.filterMap_cons, sizePred]
  · apply exists_eval
    · unfold integrateAdaptiveDense
      run_eval
    · norm_num [Log.observations, rampDense, loggedDense, TimeArith.exact, List.filterMap_cons]

/-- `integrate_const` with a dense output stepper from `0` to `4`: with an observer `start_state` becomes the state at `4`, without one it stays as it was. -/
theorem iter_const_front_dense_differs :
    (∃ r w', iterConstFrontDense (TimeArith.exact ℚ 0) (loggedDense (rampDense (3/2 : ℚ))) (some record) (0, 0, 0) 0 0 4 1 [] = .ok r w' ∧ r = (4, 4)) ∧
    (∃ r w', iterConstFrontDense (TimeArith.exact ℚ 0) (loggedDense (rampDense (3/2 : ℚ))) none (0, 0, 0) 0 0 4 1 [] = .ok r w' ∧ r = (0, 3)) := by
  constructor
  · apply exists_eval
    · unfold iterConstFrontDense iterConstDense constDenseIteratorBegin OdeIterator.forEachCounted constDenseIterator advanceDense
      run_eval
    · norm_num [rampDense, loggedDense, TimeArith.exact, sizePred]
  · apply exists_eval
    · unfold iterConstFrontDense iterAdaptiveDense adaptiveDenseIteratorBegin OdeIterator.forEachCounted adaptiveDenseIterator
      run_eval
    · norm_num [sizePred]

/-- a controlled stepper that accepts every step and proposes the step size `1/2`; its state sums up the squares of the step sizes -/
def halfNext : ControlledStepper Unit (Log ℚ ℚ) ℚ ℚ where
  tryStep _ x t dt := pure ⟨(), x + dt * dt, t + dt, 1 / 2, true⟩

theorem halfNext_retry {x t dt : ℚ} (w : Log ℚ ℚ) (b : Bool) :
    retryLoop halfNext ⟨(), x, t, dt, 0, b⟩ w = .ok ⟨(), x + dt * dt, t + dt, 1 / 2, 1, true⟩ w := by
  unfold retryLoop
  rw [M.bind_ok (show retryBody halfNext ⟨(), x, t, dt, 0, b⟩ w = .ok ⟨(), x + dt * dt, t + dt, 1 / 2, 1, true⟩ w from rfl), whileM_stop (by simp)]

/-- `integrate_const` with a controlled stepper: `dt` is a reference parameter of `integrate_adaptive`, but the version on top of the iterators does not set
it, so that each interval begins with the first step size again, and the number returned is that of the intervals.  The two versions return different states
and numbers of steps. -/
theorem iter_const_controlled_differs :
    (∃ r w', iterConstControlled (TimeArith.exact ℚ 0) halfNext record () 0 0 2 1 [] = .ok r w' ∧ r = (2, 2)) ∧
    (∃ r w', integrateConstControlled (TimeArith.exact ℚ 0) halfNext record () 0 0 2 1 [] = .ok r w' ∧ r = (3 / 2, 3)) := by
  have i1 : ∀ x t w, iterAdaptiveControlled (TimeArith.exact ℚ 0) halfNext nullObserver () x t (t + 1) 1 w = .ok (x + 1, 1) w := by
    intro x t w
    have g : integrateAdaptiveControlled (TimeArith.exact ℚ 0) halfNext nullObserver () x t (t + 1) 1 w = .ok ⟨x + 1, t + 1, 1 / 2, 1⟩ w := by
      unfold integrateAdaptiveControlled
      refine bind_eval (a := (⟨(), x + 1, t + 1, 1 / 2, 0, true⟩, 1)) (w' := w) ?_ rfl
      apply whileM_step_eval (s' := (⟨(), x + 1, t + 1, 1 / 2, 0, true⟩, 1)) (w' := w) (by simp [TimeArith.lessWithSign, TimeArith.exact])
      · refine bind_eval (a := ()) (w' := w) rfl ?_
        refine bind_eval (halfNext_retry w _) ?_
        simp [M.pure_apply, clipDt, TimeArith.lessWithSign, TimeArith.exact]
      · exact whileM_stop (by simp [TimeArith.lessWithSign, TimeArith.exact])
    rw [iter_adaptive_controlled_eq _ _ _ _ _ _ _ _ (by simp [TimeArith.lessWithSign, TimeArith.exact]) _ (by rw [g]; simp), M.bind_ok g]
    rfl
  have j1 : ∀ x t w, integrateAdaptiveControlled (TimeArith.exact ℚ 0) halfNext nullObserver () x t (t + 1) 1 w = .ok ⟨x + 1, t + 1, 1 / 2, 1⟩ w := by
    intro x t w
    unfold integrateAdaptiveControlled
    refine bind_eval (a := (⟨(), x + 1, t + 1, 1 / 2, 0, true⟩, 1)) (w' := w) ?_ rfl
    apply whileM_step_eval (s' := (⟨(), x + 1, t + 1, 1 / 2, 0, true⟩, 1)) (w' := w) (by simp [TimeArith.lessWithSign, TimeArith.exact])
    · refine bind_eval (a := ()) (w' := w) rfl ?_
      refine bind_eval (halfNext_retry w _) ?_
      simp [M.pure_apply, clipDt, TimeArith.lessWithSign, TimeArith.exact]
    · exact whileM_stop (by simp [TimeArith.lessWithSign, TimeArith.exact])
  have j2 : ∀ x t w, integrateAdaptiveControlled (TimeArith.exact ℚ 0) halfNext nullObserver () x t (t + 1) (1 / 2) w =
      .ok ⟨x + 1 / 4 + 1 / 4, t + 1 / 2 + 1 / 2, 1 / 2, 2⟩ w := by
    intro x t w
    unfold integrateAdaptiveControlled
    refine bind_eval (a := (⟨(), x + 1 / 4 + 1 / 4, t + 1 / 2 + 1 / 2, 1 / 2, 0, true⟩, 2)) (w' := w) ?_ rfl
    apply whileM_step_eval (s' := (⟨(), x + 1 / 4, t + 1 / 2, 1 / 2, 0, true⟩, 1)) (w' := w) (by simp [TimeArith.lessWithSign, TimeArith.exact])
    · refine bind_eval (a := ()) (w' := w) rfl ?_
      refine bind_eval (halfNext_retry w _) ?_
      norm_num [M.pure_apply, clipDt, TimeArith.lessWithSign, TimeArith.exact]
    apply whileM_step_eval (s' := (⟨(), x + 1 / 4 + 1 / 4, t + 1 / 2 + 1 / 2, 1 / 2, 0, true⟩, 2)) (w' := w)
      (by norm_num [TimeArith.lessWithSign, TimeArith.exact])
    · refine bind_eval (a := ()) (w' := w) rfl ?_
      refine bind_eval (halfNext_retry w _) ?_
      have : ¬ (t + 1 < t + 1 / 2 + 1 / 2) := by linarith
      norm_num [M.pure_apply, clipDt, TimeArith.lessWithSign, TimeArith.exact, this]
    · refine whileM_stop ?_
      have : t + 1 ≤ t + 1 / 2 + 1 / 2 := by linarith
      norm_num [TimeArith.lessWithSign, TimeArith.exact, this]
  have one : ∀ x : ℚ, (TimeArith.exact ℚ 0).add x 1 = x + 1 := fun _ => rfl
  constructor
  · refine exists_eval (a := (2, 2)) (w := [.obs 0 0, .obs 1 1, .obs 2 2]) ?_ rfl
    unfold iterConstControlled
    refine bind_eval (a := (2, 2, 2)) (w' := [.obs 0 0, .obs 1 1]) ?_ rfl
    refine whileM_step_eval (s' := (1, 1, 1)) (w' := [.obs 0 0]) (by cond_eval) ?_ (whileM_step_eval (s' := (2, 2, 2)) (w' := [.obs 0 0, .obs 1 1]) (by cond_eval) ?_ (whileM_stop (by cond_eval)))
    · refine bind_eval rfl ?_
      rw [one]
      refine bind_eval (i1 _ _ _) ?_
      norm_num [M.pure_apply, TimeArith.exact]
    · refine bind_eval rfl ?_
      rw [one]
      refine bind_eval (i1 _ _ _) ?_
      norm_num [M.pure_apply, TimeArith.exact]
  · refine exists_eval (a := (3 / 2, 3)) (w := [.obs 0 0, .obs 1 1, .obs (3 / 2) 2]) ?_ rfl
    unfold integrateConstControlled
    refine bind_eval (a := ⟨3 / 2, 2, 1 / 2, 2, 3⟩) (w' := [.obs 0 0, .obs 1 1]) ?_ rfl
    refine whileM_step_eval (s' := ⟨1, 1, 1 / 2, 1, 1⟩) (w' := [.obs 0 0]) (by cond_eval) ?_ (whileM_step_eval (s' := ⟨3 / 2, 2, 1 / 2, 2, 3⟩) (w' := [.obs 0 0, .obs 1 1]) (by cond_eval) ?_
      (whileM_stop (by cond_eval)))
    · refine bind_eval rfl ?_
      rw [one]
      refine bind_eval (j1 _ _ _) ?_
      norm_num [M.pure_apply, TimeArith.exact]
    · refine bind_eval rfl ?_
      rw [one]
      refine bind_eval (j2 _ _ _) ?_
      norm_num [M.pure_apply, TimeArith.exact]

/-- The hypotheses about the direction are met by ordinary calls. -/
example : (TimeArith.exact ℚ 0).lessWithSign 2 0 1 = false ∧ (TimeArith.exact ℚ 0).lessWithSign 0 2 (-1) = false ∧
    (TimeArith.exact ℚ 0).lessWithSign 0 2 1 = true := by
  norm_num [TimeArith.lessWithSign, TimeArith.exact]

end Verif
