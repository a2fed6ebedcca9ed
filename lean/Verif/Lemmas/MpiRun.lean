import Verif.Lemmas.Mpi
import Verif.Spec.ControlledRun
import Verif.Spec.Convergence
import Mathlib.Algebra.BigOperators.Fin
import Mathlib.Algebra.Order.BigOperators.Group.Finset
import Mathlib.Tactic.Push

/-! # Integrations on several nodes -/

set_option linter.unusedSectionVars false

namespace Verif
variable {K V : Type} {N : ℕ} {U : Fin N → Type} {part : ∀ n, V → U n}

section
variable {H Q : Type} {H' Q' : Fin N → Type} {S : Sided N K H H'} {J : ∀ n, Q → Q' n → Prop}

/-- the results of `try_step` -/
def TryJ (part : ∀ n, V → U n) (J : ∀ n, Q → Q' n → Prop) (n : Fin N) (r : TryResult Q V K) (r' : TryResult (Q' n) (U n) K) : Prop :=
  J n r.q r'.q ∧ r'.x = part n r.x ∧ r'.t = r.t ∧ r'.dt = r.dt ∧ r'.success = r.success

/-- controlled steppers -/
def CtrlJoint (S : Sided N K H H') (part : ∀ n, V → U n) (J : ∀ n, Q → Q' n → Prop) (st : ControlledStepper Q H V K)
    (st' : ∀ n, ControlledStepper (Q' n) (H' n) (U n) K) : Prop :=
  ∀ q x t dt, Joint S (TryJ part J) (st.tryStep q x t dt) fun n m => ∃ q', J n q q' ∧ m = (st' n).tryStep q' (part n x) t dt

/-- observers -/
def ObsJoint (S : Sided N K H H') (part : ∀ n, V → U n) (obs : Observer H V K) (obs' : ∀ n, Observer (H' n) (U n) K) : Prop :=
  ∀ x t, Joint (β' := fun _ => Unit) S (fun _ => Eq) (obs x t) fun n m => m = obs' n (part n x) t

theorem ObsJoint.null : ObsJoint S part nullObserver fun _ => nullObserver := fun _ _ => Joint.pureEq ()

/-- the local variables of `integrate_adaptive` -/
def AdaptJ (part : ∀ n, V → U n) (J : ∀ n, Q → Q' n → Prop) (n : Fin N) (s : AdaptState Q V K) (s' : AdaptState (Q' n) (U n) K) : Prop :=
  J n s.q s'.q ∧ s'.x = part n s.x ∧ s'.t = s.t ∧ s'.dt = s.dt ∧ s'.fails = s.fails ∧ s'.success = s.success

variable {st : ControlledStepper Q H V K} {st' : ∀ n, ControlledStepper (Q' n) (H' n) (U n) K}

theorem failedStepChecker_joint (max c : ℕ) :
    Joint (β' := fun _ => ℕ) S (fun _ => Eq) (failedStepChecker max c) fun _ m => m = failedStepChecker max c := by
  refine Joint.silent fun h n h' hr _ q hq => ?_
  subst hq
  unfold failedStepChecker
  by_cases hc : c ≥ max
  · simp only [hc, if_true]
    exact ⟨h', rfl, hr, rfl⟩
  · simp only [hc, if_false]
    exact ⟨_, h', rfl, rfl, hr, rfl⟩

theorem retryBody_joint (hst : CtrlJoint S part J st st') (s : AdaptState Q V K) :
    Joint S (AdaptJ part J) (retryBody st s) fun n m => ∃ s', AdaptJ part J n s s' ∧ m = retryBody (st' n) s' := by
  unfold retryBody
  refine ((hst s.q s.x s.t s.dt).bind fun r => (failedStepChecker_joint defaultMaxSteps s.fails).bind fun fails =>
    Joint.silent (O := AdaptJ part J)
      (Q := fun n m => ∃ r', TryJ part J n r r' ∧ m = Pure.pure ⟨r'.q, r'.x, r'.t, r'.dt, fails, r'.success⟩) ?_).mono ?_
  · rintro h n h' hr _ q ⟨r', ⟨h1, h2, h3, h4, h5⟩, rfl⟩
    exact ⟨_, _, rfl, ⟨h1, h2, h3, h4, rfl, h5⟩, hr, rfl⟩
  · rintro n m ⟨⟨q', x', t', dt', fails', suc'⟩, ⟨h1, h2, h3, h4, h5, h6⟩, rfl⟩
    dsimp only at h1 h2 h3 h4 h5 h6
    subst h2 h3 h4 h5
    exact ⟨_, _, rfl, ⟨q', h1, rfl⟩, fun r r' hrr => ⟨_, _, rfl, rfl, fun b b' hb => ⟨r', hrr, by rw [hb]⟩⟩⟩

theorem retryLoop_joint (hst : CtrlJoint S part J st st') (s : AdaptState Q V K) :
    Joint S (AdaptJ part J) (retryLoop st s) fun n m => ∃ s', AdaptJ part J n s s' ∧ m = retryLoop (st' n) s' := by
  unfold retryLoop
  refine ((retryBody_joint hst s).bind fun s1 => Joint.whileM (I := AdaptJ part J) (cond' := fun n (s : AdaptState (Q' n) (U n) K) => !s.success)
    (q := fun n => retryBody (st' n)) ?_ (retryBody_joint hst) s1).mono ?_
  · rintro n s s' ⟨_, _, _, _, _, h6⟩
    rw [h6]
  · rintro n m ⟨s', hs', rfl⟩
    exact ⟨_, _, rfl, ⟨s', hs', rfl⟩, fun b b' hb => ⟨b', hb, rfl⟩⟩

/-- the results of `integrate_adaptive` -/
def ResultJ (part : ∀ n, V → U n) (n : Fin N) (r : AdaptResult V K) (r' : AdaptResult (U n) K) : Prop := r' = ⟨part n r.x, r.t, r.dt, r.count⟩

theorem integrateAdaptiveControlled_joint (hst : CtrlJoint S part J st st') {obs : Observer H V K} {obs' : ∀ n, Observer (H' n) (U n) K}
    (ho : ObsJoint S part obs obs') (A : TimeArith K) (q : Q) (x : V) (t0 t1 dt : K) :
    Joint S (ResultJ part) (integrateAdaptiveControlled A st obs q x t0 t1 dt)
      fun n m => ∃ q', J n q q' ∧ m = integrateAdaptiveControlled A (st' n) (obs' n) q' (part n x) t0 t1 dt := by
  unfold integrateAdaptiveControlled
  refine ((Joint.whileM (I := fun n (p : AdaptState Q V K × ℕ) (p' : AdaptState (Q' n) (U n) K × ℕ) => AdaptJ part J n p.1 p'.1 ∧ p'.2 = p.2)
    (cond' := fun n p => A.lessWithSign p.1.t t1 p.1.dt)
    (q := fun n p => do
      obs' n p.1.x p.1.t
      let s ← retryLoop (st' n) { p.1 with dt := clipDt A p.1.t t1 p.1.dt }
      return ({ s with fails := 0 }, p.2 + 1)) ?_ ?_ (⟨q, x, t0, dt, 0, true⟩, 0)).bind fun p => (ho p.1.x p.1.t).bind fun _ =>
    Joint.silent (O := ResultJ part)
      (Q := fun n m => ∃ p' : AdaptState (Q' n) (U n) K × ℕ, (AdaptJ part J n p.1 p'.1 ∧ p'.2 = p.2) ∧ m = Pure.pure ⟨p'.1.x, p'.1.t, p'.1.dt, p'.2⟩) ?_).mono ?_
  · rintro n s s' ⟨⟨_, _, h3, h4, _, _⟩, _⟩
    rw [h3, h4]
  · intro p
    refine ((ho p.1.x p.1.t).bind fun _ => (retryLoop_joint hst { p.1 with dt := clipDt A p.1.t t1 p.1.dt }).bind fun s =>
      Joint.silent
        (Q := fun n m => ∃ s' : AdaptState (Q' n) (U n) K, AdaptJ part J n s s' ∧ m = Pure.pure ({ s' with fails := 0 }, p.2 + 1)) ?_).mono ?_
    · rintro h n h' hr _ m ⟨s', ⟨h1, h2, h3, h4, h5, h6⟩, rfl⟩
      exact ⟨_, _, rfl, ⟨⟨h1, h2, h3, h4, rfl, h6⟩, rfl⟩, hr, rfl⟩
    · rintro n m ⟨⟨⟨q', x', t', dt', fails', suc'⟩, c'⟩, ⟨⟨h1, h2, h3, h4, h5, h6⟩, h7⟩, rfl⟩
      dsimp only at h1 h2 h3 h4 h5 h6 h7
      subst h2 h3 h4 h5 h6 h7
      exact ⟨_, _, rfl, rfl, fun _ _ _ => ⟨_, _, rfl, ⟨_, ⟨h1, rfl, rfl, rfl, rfl, rfl⟩, rfl⟩, fun b b' hb => ⟨b', hb, rfl⟩⟩⟩
  · rintro h n h' hr _ m ⟨p', ⟨⟨h1, h2, h3, h4, h5, h6⟩, h7⟩, rfl⟩
    exact ⟨_, _, rfl, by rw [ResultJ, h2, h3, h4, h7], hr, rfl⟩
  · rintro n m ⟨q', hq, rfl⟩
    refine ⟨_, _, rfl, ⟨_, ⟨⟨hq, rfl, rfl, rfl, rfl, rfl⟩, rfl⟩, rfl⟩, ?_⟩
    rintro b ⟨⟨q2, x2, t2, dt2, fails2, suc2⟩, c2⟩ ⟨⟨h1, h2, h3, h4, h5, h6⟩, h7⟩
    dsimp only at h1 h2 h3 h4 h5 h6 h7
    subst h2 h3 h4 h5 h6 h7
    exact ⟨_, _, rfl, rfl, fun _ _ _ => ⟨(⟨q2, part n b.1.x, b.1.t, b.1.dt, b.1.fails, b.1.success⟩, b.2),
      ⟨⟨h1, rfl, rfl, rfl, rfl, rfl⟩, rfl⟩, rfl⟩⟩

/-- a state and a value -/
def PairJ {β : Type} (part : ∀ n, V → U n) (n : Fin N) (r : V × β) (r' : U n × β) : Prop := r' = (part n r.1, r.2)

theorem nStepsControlledLoop_joint (hst : CtrlJoint S part J st st') {obs : Observer H V K} {obs' : ∀ n, Observer (H' n) (U n) K}
    (ho : ObsJoint S part obs obs') (A : TimeArith K) (q : Q) (t0 h : K) : ∀ (k step : ℕ) (x : V) (t dt : K),
    Joint S (PairJ part) (nStepsControlledLoop A st obs q t0 h k step x t dt)
      fun n m => ∃ q', J n q q' ∧ m = nStepsControlledLoop A (st' n) (obs' n) q' t0 h k step (part n x) t dt := by
  intro k
  induction k with
  | zero =>
    intro step x t dt
    refine (Joint.pure (b' := fun n => (part n x, t)) fun n => rfl).mono ?_
    rintro n m ⟨q', hq, rfl⟩
    rfl
  | succ k ih =>
    intro step x t dt
    unfold nStepsControlledLoop
    refine ((ho x t).bind fun _ => (integrateAdaptiveControlled_joint hst ObsJoint.null A q x t (A.add t h) dt).bind fun r =>
      ih (step + 1) r.x (A.add t0 (A.nmul (step + 1) h)) r.dt).mono ?_
    rintro n m ⟨q', hq, rfl⟩
    refine ⟨_, _, rfl, rfl, fun _ _ _ => ⟨_, _, rfl, ⟨q', hq, rfl⟩, ?_⟩⟩
    rintro b b' hb
    obtain rfl : b' = _ := hb
    exact ⟨q', hq, rfl⟩

theorem integrateNStepsControlled_joint (hst : CtrlJoint S part J st st') {obs : Observer H V K} {obs' : ∀ n, Observer (H' n) (U n) K}
    (ho : ObsJoint S part obs obs') (A : TimeArith K) (q : Q) (x : V) (t0 dt : K) (k : ℕ) :
    Joint S (PairJ part) (integrateNStepsControlled A st obs q x t0 dt k)
      fun n m => ∃ q', J n q q' ∧ m = integrateNStepsControlled A (st' n) (obs' n) q' (part n x) t0 dt k := by
  unfold integrateNStepsControlled
  refine ((nStepsControlledLoop_joint hst ho A q t0 dt k 0 x t0 dt).bind fun r => (ho r.1 r.2).bind fun _ =>
    Joint.pure (b := (r.1, r.2)) (b' := fun n => (part n r.1, r.2)) (O := PairJ part) fun n => rfl).mono ?_
  rintro n m ⟨q', hq, rfl⟩
  refine ⟨_, _, rfl, ⟨q', hq, rfl⟩, ?_⟩
  rintro b b' hb
  obtain rfl : b' = _ := hb
  exact ⟨_, _, rfl, rfl, fun _ _ _ => rfl⟩

theorem integrateConstControlled_joint (hst : CtrlJoint S part J st st') {obs : Observer H V K} {obs' : ∀ n, Observer (H' n) (U n) K}
    (ho : ObsJoint S part obs obs') (A : TimeArith K) (q : Q) (q' : ∀ n, Q' n) (hq : ∀ n, J n q (q' n)) (x : V) (t0 t1 dt : K) :
    Joint S (PairJ part) (integrateConstControlled A st obs q x t0 t1 dt)
      fun n m => m = integrateConstControlled A (st' n) (obs' n) (q' n) (part n x) t0 t1 dt := by
  unfold integrateConstControlled
  refine ((Joint.whileM (I := fun n (s : CtrlState V K) (s' : CtrlState (U n) K) => s' = ⟨part n s.x, s.time, s.dt, s.step, s.real⟩)
    (cond' := fun n s => A.lessEqWithSign (A.add s.time dt) t1 s.dt)
    (q := fun n s => do
      obs' n s.x s.time
      let r ← integrateAdaptiveControlled A (st' n) nullObserver (q' n) s.x s.time (A.add s.time dt) s.dt
      return ⟨r.x, A.add t0 (A.nmul (s.step + 1) dt), r.dt, s.step + 1, s.real + r.count⟩) ?_ ?_ ⟨x, t0, dt, 0, 0⟩).bind
    fun s => (ho s.x s.time).bind fun _ => Joint.pure (b := (s.x, s.real)) (b' := fun n => (part n s.x, s.real)) (O := PairJ part) fun n => rfl).mono ?_
  · rintro n s s' rfl
    rfl
  · intro s
    refine ((ho s.x s.time).bind fun _ => (integrateAdaptiveControlled_joint hst ObsJoint.null A q s.x s.time (A.add s.time dt) s.dt).bind fun r =>
      Joint.pure (b' := fun n => (⟨part n r.x, A.add t0 (A.nmul (s.step + 1) dt), r.dt, s.step + 1, s.real + r.count⟩ : CtrlState (U n) K))
        fun n => rfl).mono ?_
    rintro n m ⟨s', rfl, rfl⟩
    refine ⟨_, _, rfl, rfl, fun _ _ _ => ⟨_, _, rfl, ⟨q' n, hq n, rfl⟩, ?_⟩⟩
    rintro b b' hb
    obtain rfl : b' = _ := hb
    rfl
  · rintro n m rfl
    refine ⟨_, _, rfl, ⟨_, rfl, rfl⟩, ?_⟩
    rintro b b' rfl
    exact ⟨_, _, rfl, rfl, fun _ _ _ => rfl⟩

/-- the local variables of `integrate_times` -/
def TimesJ (part : ∀ n, V → U n) (J : ∀ n, Q → Q' n → Prop) (n : Fin N) (s : TimesState Q V K) (s' : TimesState (Q' n) (U n) K) : Prop :=
  ∃ q', J n s.q q' ∧ s' = ⟨q', part n s.x, s.time, s.dt, s.steps, s.fails⟩

theorem timesControlledBody_joint (hst : CtrlJoint S part J st st') (A : TimeArith K) (next : K) (s : TimesState Q V K) :
    Joint S (TimesJ part J) (timesControlledBody A st next s) fun n m => ∃ s', TimesJ part J n s s' ∧ m = timesControlledBody A (st' n) next s' := by
  unfold timesControlledBody
  refine ((hst s.q s.x s.time (A.minAbs s.dt (A.sub next s.time))).bind (O' := TimesJ part J)
    (Q' := fun r n m => ∃ r', TryJ part J n r r' ∧ m = if r'.success then
        pure ⟨r'.q, r'.x, r'.t, A.maxAbs s.dt r'.dt, s.steps + 1, 0⟩
      else do
        let fails ← failedStepChecker defaultMaxSteps s.fails
        return ⟨r'.q, r'.x, r'.t, r'.dt, s.steps, fails⟩) fun r => ?_).mono ?_
  · by_cases hsuc : r.success = true
    · simp only [hsuc, if_true]
      refine Joint.silent ?_
      rintro h n h' hr _ m ⟨r', ⟨h1, h2, h3, h4, h5⟩, rfl⟩
      rw [h5, hsuc, h2, h3, h4]
      exact ⟨_, _, rfl, ⟨_, h1, rfl⟩, hr, rfl⟩
    · simp only [hsuc]
      refine ((failedStepChecker_joint defaultMaxSteps s.fails).bind fun fails =>
        Joint.silent (O := TimesJ part J) (Q := fun n m => ∃ r', TryJ part J n r r' ∧ m = Pure.pure ⟨r'.q, r'.x, r'.t, r'.dt, s.steps, fails⟩) ?_).mono ?_
      · rintro h n h' hr _ m ⟨r', ⟨h1, h2, h3, h4, h5⟩, rfl⟩
        rw [h2, h3, h4]
        exact ⟨_, _, rfl, ⟨_, h1, rfl⟩, hr, rfl⟩
      · rintro n m ⟨r', hr, rfl⟩
        have h5 : r'.success = false := by rw [hr.2.2.2.2]; simpa using hsuc
        rw [h5]
        exact ⟨_, _, rfl, rfl, fun b b' hb => ⟨r', hr, by rw [hb]⟩⟩
  · rintro n m ⟨s', ⟨q', hq, rfl⟩, rfl⟩
    exact ⟨_, _, rfl, ⟨q', hq, rfl⟩, fun b b' hb => ⟨b', hb, rfl⟩⟩

theorem timesControlledLoop_joint (hst : CtrlJoint S part J st st') {obs : Observer H V K} {obs' : ∀ n, Observer (H' n) (U n) K}
    (ho : ObsJoint S part obs obs') (A : TimeArith K) : ∀ (l : List K) (s : TimesState Q V K),
    Joint S (PairJ part) (timesControlledLoop A st obs l s) fun n m => ∃ s', TimesJ part J n s s' ∧ m = timesControlledLoop A (st' n) (obs' n) l s'
  | [], s => Joint.silent fun h n h' hr _ m hm => trivial
  | [t], s => by
    unfold timesControlledLoop
    refine ((ho s.x t).bind fun _ => Joint.pure (b := (s.x, s.steps)) (b' := fun n => (part n s.x, s.steps)) (O := PairJ part) fun n => rfl).mono ?_
    rintro n m ⟨s', ⟨q', hq, rfl⟩, rfl⟩
    exact ⟨_, _, rfl, rfl, fun _ _ _ => rfl⟩
  | t :: next :: rest, s => by
    have ih := timesControlledLoop_joint hst ho A (next :: rest)
    unfold timesControlledLoop
    refine ((ho s.x t).bind fun _ => (Joint.whileM (I := TimesJ part J)
      (cond' := fun n (s : TimesState (Q' n) (U n) K) => A.lessWithSign s.time next s.dt) (q := fun n => timesControlledBody A (st' n) next) ?_
      (timesControlledBody_joint hst A next) { s with time := t }).bind ih).mono ?_
    · rintro n s s' ⟨q', hq, rfl⟩
      rfl
    · rintro n m ⟨s', ⟨q', hq, rfl⟩, rfl⟩
      exact ⟨_, _, rfl, rfl, fun _ _ _ => ⟨_, _, rfl, ⟨_, ⟨q', hq, rfl⟩, rfl⟩, fun b b' hb => ⟨b', hb, rfl⟩⟩⟩

end

/-! ## The steppers and observers of the model -/

section
variable {W : Type}

/-- the logs of the nodes contain the parts of the states -/
def runSided (W : Type) (part : ∀ n, V → U n) (combine : List (Msg K) → Option (Reply K)) :
    Sided N K (W × Log V K) fun n => Port K × Log (U n) K where
  combine := combine
  rel n w w' := w'.2 = w.2.mapState (part n)
  port _ w := w.1

/-- the members of the steppers -/
abbrev HeapJ (part : ∀ n, V → U n) (n : Fin N) : Heap K V W → Heap K (U n) (Port K) → Prop := HeapRel (fun x y => part n x = y) fun _ _ => True

variable {combine : List (Msg K) → Option (Reply K)}

theorem recordObserver_joint : ObsJoint (runSided W part combine) part recordObserver fun _ => recordObserver := by
  intro x t
  refine Joint.silent fun h n h' hr _ m hm => ?_
  subst hm
  refine ⟨(), (h'.1, h'.2 ++ [.obs (part n x) t]), rfl, rfl, ?_, rfl⟩
  show h'.2 ++ [.obs (part n x) t] = Log.mapState (part n) (h.2 ++ [.obs x t])
  rw [show h'.2 = h.2.mapState (part n) from hr]
  simp [Log.mapState, Event.mapState]

theorem controlledObject_joint {p : Loc → K → K → StepM K V W (TryOut K)} {p' : ∀ n, Loc → K → K → StepM K (U n) (Port K) (TryOut K)}
    (h : ∀ x t dt, HeapJoint part combine (p x t dt) fun n => p' n x t dt) :
    CtrlJoint (runSided W part combine) part (HeapJ part) (controlledObject p) fun n => controlledObject (p' n) := by
  intro q x t dt w
  obtain ⟨tr, v, F⟩ := h (.user 0) t dt ((q.set (.user 0) x).withWorld w.1)
  refine ⟨tr, v, ?_⟩
  rintro n w' hr m ⟨q', hq, rfl⟩
  have hrel : HeapJ part n ((q.set (.user 0) x).withWorld w.1) ((q'.set (.user 0) (part n x)).withWorld w'.1) := by
    have := HeapRel.set hq (.user 0) (v := x) (u := part n x) rfl
    exact ⟨this.state, this.num, this.flag, this.nat, trivial⟩
  obtain ⟨a1, a2⟩ := F n _ hrel _ rfl
  refine ⟨fun ρ hρ => ?_, fun k hk hρ => ?_⟩
  · have b1 := a1 ρ hρ
    simp only [controlledObject]
    cases hp : p (.user 0) t dt ((q.set (.user 0) x).withWorld w.1) with
    | ub => trivial
    | div => trivial
    | err e h1 =>
      rw [hp] at b1
      obtain ⟨h1', e1, r1, r2⟩ := b1
      refine ⟨(h1'.world, w'.2), ?_, hr, r2⟩
      rw [show p' n (.user 0) t dt ((q'.set (.user 0) (part n x)).withWorld w'.1) = _ from e1]
    | ok b h1 =>
      rw [hp] at b1
      obtain ⟨b', h1', e1, rfl, r1, r2⟩ := b1
      refine ⟨⟨h1', h1'.state (.user 0), b.t, b.dt, b.success⟩, (h1'.world, w'.2), ?_, ⟨r1, (HeapRel.state r1 _).symm, rfl, rfl, rfl⟩, hr, r2⟩
      rw [show p' n (.user 0) t dt ((q'.set (.user 0) (part n x)).withWorld w'.1) = _ from e1]
  · obtain ⟨e, h1', e1, r1⟩ := a2 k hk hρ
    refine ⟨e, (h1'.world, w'.2), ?_, r1⟩
    simp only [controlledObject]
    rw [show p' n (.user 0) t dt ((q'.set (.user 0) (part n x)).withWorld w'.1) = _ from e1]


/-! ## The network -/

/-- the communication of the nodes is known -/
structure Net.Along (tr : CommTrace N K) (s : Net N K) (i j : Fin N → ℕ) : Prop where
  got : ∀ n, s.got n = (tr.take (i n)).map Prod.snd
  sent : ∀ n, s.sent n = (tr.take (j n)).map fun e => e.1 n
  le : ∀ n, i n ≤ j n
  le_succ : ∀ n, j n ≤ i n + 1
  length : ∀ n, j n ≤ tr.length

theorem Net.Along.got_length {tr : CommTrace N K} {s : Net N K} {i j : Fin N → ℕ} (h : s.Along tr i j) (n : Fin N) : (s.got n).length = i n := by
  rw [h.got, List.length_map, List.length_take]
  exact min_eq_left ((h.le n).trans (h.length n))

theorem Net.Along.sent_length {tr : CommTrace N K} {s : Net N K} {i j : Fin N → ℕ} (h : s.Along tr i j) (n : Fin N) : (s.sent n).length = j n := by
  rw [h.sent, List.length_map, List.length_take]
  exact min_eq_left (h.length n)

theorem Net.Along.sent_get {tr : CommTrace N K} {s : Net N K} {i j : Fin N → ℕ} (h : s.Along tr i j) (m : Fin N) (k : ℕ) (hk : k < tr.length) :
    (s.sent m)[k]? = if k < j m then some (tr[k].1 m) else none := by
  rw [h.sent, List.getElem?_map, List.getElem?_take]
  split
  · rw [List.getElem?_eq_getElem hk]
    rfl
  · rfl

variable {L A' : Fin N → Type} {prog : ∀ n, M (Port K × L n) (A' n)} {l0 : ∀ n, L n} {r : ∀ n, Res (L n) (A' n)}

theorem alwaysEnds_of_trace (tr : CommTrace N K) (htr : ∀ e ∈ tr, combine (List.ofFn e.1) = some e.2)
    (hlast : ∀ n, prog n (⟨tr.map Prod.snd, none⟩, l0 n) = match r n with
      | .ok a l => .ok a (⟨[], none⟩, l)
      | .err e l => .err e (⟨[], none⟩, l)
      | .ub => .ub
      | .div => .div)
    (hmid : ∀ n k (hk : k < tr.length), ∃ e w, prog n (⟨(tr.take k).map Prod.snd, none⟩, l0 n) = .err e w ∧ w.1.waiting = some (tr[k].1 n)) :
    AlwaysEnds combine prog l0 r := by
  have inv : ∀ k s, NetRun combine prog l0 k s → ∃ i j, s.Along tr i j ∧ k = ∑ n, (i n + j n) := by
    intro k s hrun
    induction hrun with
    | start => exact ⟨fun _ => 0, fun _ => 0, ⟨fun _ => rfl, fun _ => rfl, fun _ => le_rfl, fun _ => Nat.zero_le _, fun _ => Nat.zero_le _⟩, by simp⟩
    | @step k s s' hrun hstep ih =>
      obtain ⟨i, j, hs, hk⟩ := ih
      cases hstep with
      | contribute n e w c hn hp hw =>
        rw [hs.got_length, hs.sent_length] at hn
        have hlt : i n < tr.length := by
          by_contra hge
          have heq : i n = tr.length := le_antisymm ((hs.le n).trans (hs.length n)) (not_lt.1 hge)
          rw [hs.got, heq, List.take_length, hlast n] at hp
          cases hr : r n with
          | ok a l => rw [hr] at hp; cases hp
          | err e' l =>
            rw [hr] at hp
            simp only [Res.err.injEq] at hp
            obtain ⟨rfl, rfl⟩ := hp
            cases hw
          | ub => rw [hr] at hp; cases hp
          | div => rw [hr] at hp; cases hp
        obtain ⟨e', w', e1, h1⟩ := hmid n (i n) hlt
        rw [hs.got, e1] at hp
        simp only [Res.err.injEq] at hp
        obtain ⟨rfl, rfl⟩ := hp
        obtain rfl : tr[i n].1 n = c := Option.some.inj (h1.symm.trans hw)
        refine ⟨i, Function.update j n (j n + 1), ⟨hs.got, fun m => ?_, fun m => ?_, fun m => ?_, fun m => ?_⟩, ?_⟩
        · by_cases hm : m = n
          · subst hm
            simp only [Function.update_self]
            rw [hs.sent, hn, List.take_add_one, List.getElem?_eq_getElem hlt, List.map_append]
            rfl
          · simp only [Function.update_of_ne hm]
            exact hs.sent m
        · by_cases hm : m = n
          · subst hm; simp only [Function.update_self]; omega
          · simp only [Function.update_of_ne hm]; exact hs.le m
        · by_cases hm : m = n
          · subst hm; simp only [Function.update_self]; omega
          · simp only [Function.update_of_ne hm]; exact hs.le_succ m
        · by_cases hm : m = n
          · subst hm; simp only [Function.update_self]; omega
          · simp only [Function.update_of_ne hm]; exact hs.length m
        · rw [hk, Finset.sum_add_distrib, Finset.sum_add_distrib, Finset.sum_update_of_mem (Finset.mem_univ n), add_assoc]
          congr 1
          rw [← Finset.add_sum_erase Finset.univ j (Finset.mem_univ n), Finset.sdiff_singleton_eq_erase]
          omega
      | receive n c r' hc hr =>
        have hlt : i n < tr.length := by
          have h1 := hc n
          rw [hs.got_length] at h1
          have := (List.getElem?_eq_some_iff.1 h1).1
          rw [hs.sent_length] at this
          exact this.trans_le (hs.length n)
        have hj : ∀ m, i n < j m ∧ c m = tr[i n].1 m := by
          intro m
          have h1 := hc m
          rw [hs.got_length, hs.sent_get m (i n) hlt] at h1
          split at h1
          · exact ⟨‹_›, (Option.some.inj h1).symm⟩
          · cases h1
        have hceq : c = tr[i n].1 := funext fun m => (hj m).2
        rw [hceq, htr _ (List.getElem_mem hlt)] at hr
        obtain rfl : tr[i n].2 = r' := Option.some.inj hr
        refine ⟨Function.update i n (i n + 1), j, ⟨fun m => ?_, hs.sent, fun m => ?_, fun m => ?_, hs.length⟩, ?_⟩
        · by_cases hm : m = n
          · subst hm
            simp only [Function.update_self]
            rw [hs.got, List.take_add_one, List.getElem?_eq_getElem hlt, List.map_append]
            rfl
          · simp only [Function.update_of_ne hm]
            exact hs.got m
        · by_cases hm : m = n
          · subst hm; simp only [Function.update_self]; exact (hj m).1
          · simp only [Function.update_of_ne hm]; exact hs.le m
        · by_cases hm : m = n
          · subst hm; simp only [Function.update_self]; have := hs.le_succ m; omega
          · simp only [Function.update_of_ne hm]; exact hs.le_succ m
        · rw [hk, Finset.sum_add_distrib, Finset.sum_add_distrib, Finset.sum_update_of_mem (Finset.mem_univ n),
            ← Finset.add_sum_erase Finset.univ i (Finset.mem_univ n), Finset.sdiff_singleton_eq_erase]
          omega
  refine ⟨N * (2 * tr.length), fun k s hrun => ?_⟩
  obtain ⟨i, j, hs, rfl⟩ := inv k s hrun
  refine ⟨?_, ?_⟩
  · calc ∑ n, (i n + j n) ≤ ∑ _n : Fin N, 2 * tr.length := Finset.sum_le_sum fun n _ => by have := hs.le n; have := hs.length n; omega
      _ = N * (2 * tr.length) := by simp
  · by_cases hall : ∀ n, i n = tr.length
    · right
      intro n
      refine ⟨?_, ?_⟩
      · rw [hs.got_length, hs.sent_length]
        have := hs.le n; have := hs.length n; have := hall n; omega
      · rw [hs.got, hall n, List.take_length]
        exact hlast n
    · left
      obtain ⟨n0, hn0⟩ := not_forall.1 hall
      obtain ⟨n, -, hmin⟩ := Finset.exists_min_image (Finset.univ : Finset (Fin N)) i ⟨n0, Finset.mem_univ _⟩
      have hlt : i n < tr.length := (hmin n0 (Finset.mem_univ _)).trans_lt
        (lt_of_le_of_ne ((hs.le n0).trans (hs.length n0)) hn0)
      by_cases hm : ∃ m, j m ≤ i n
      · obtain ⟨m, hm⟩ := hm
        have h1 := hmin m (Finset.mem_univ _)
        have h2 := hs.le m
        have him : i m = i n := by omega
        obtain ⟨e, w, e1, hw⟩ := hmid m (i m) (by omega)
        exact ⟨_, NetStep.contribute s m e w _ (by rw [hs.got_length, hs.sent_length]; omega) (by rw [hs.got]; exact e1) hw⟩
      · push Not at hm
        refine ⟨_, NetStep.receive s n tr[i n].1 tr[i n].2 (fun m => ?_) (htr _ (List.getElem_mem hlt))⟩
        rw [hs.got_length, hs.sent_get m (i n) hlt, if_pos (hm m)]

/-- a program that is executed jointly always ends like the sequential one -/
theorem Joint.alwaysEnds {β : Type} {β' : Fin N → Type} {out : ∀ n, β → β' n} {p : M (W × Log V K) β} {q : ∀ n, M (Port K × Log (U n) K) (β' n)}
    (h : Joint (runSided W part combine) (fun n b b' => b' = out n b) p fun n m => m = q n) : RunsLike part combine out p q := by
  intro w l hub hdiv
  obtain ⟨tr, v, F⟩ := h (w, l)
  refine alwaysEnds_of_trace tr v (fun n => ?_) fun n k hk => ?_
  · have := (F n (⟨tr.map Prod.snd, none⟩, l.mapState (part n)) rfl _ rfl).1 [] (by simp [runSided])
    cases hp : p (w, l) with
    | ub => exact absurd hp hub
    | div => exact absurd hp hdiv
    | ok b w1 =>
      rw [hp] at this
      obtain ⟨b', ⟨h1, h2⟩, e1, rfl, r1, r2⟩ := this
      obtain rfl : h2 = _ := r1
      obtain rfl : h1 = _ := r2
      exact e1
    | err e w1 =>
      rw [hp] at this
      obtain ⟨⟨h1, h2⟩, e1, r1, r2⟩ := this
      obtain rfl : h2 = _ := r1
      obtain rfl : h1 = _ := r2
      exact e1
  · exact (F n (⟨(tr.take k).map Prod.snd, none⟩, l.mapState (part n)) rfl _ rfl).2 k hk rfl

end
end Verif
