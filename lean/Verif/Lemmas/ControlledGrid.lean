import Verif.Lemmas.Observers
import Verif.Lemmas.Controlled
import Verif.Lemmas.IntegrateFixed
import Verif.Spec.ControlledGrid

/-! Helper lemmas for C07. -/

namespace Verif
open SimCtx
variable {Q S T : Type}

/-- the log of a run without observer, compared with the log of the same run with observer -/
def hideW (w0 : Log S T) (w w' : Log S T) : Prop := w = w0 ++ w'.withoutObs

theorem withoutObs_append (l l' : Log S T) : Log.withoutObs (l ++ l') = l.withoutObs ++ l'.withoutObs := by
  simp [Log.withoutObs]

/-- Without observer `integrate_adaptive` makes the same trials and returns the same. -/
theorem adaptive_null_record (A : TimeArith T) (f : Q → S → T → T → Except Err (TryResult Q S T))
    (q : Q) (x : S) (t0 t1 dt : T) (w : Log S T) :
    (plainCtx (hideW w)).Rel (fun r r' w1 w1' => r = r' ∧ hideW w w1 w1')
      (integrateAdaptiveControlled A (loggedControlled f) nullObserver q x t0 t1 dt w)
      (integrateAdaptiveControlled A (loggedControlled f) record q x t0 t1 dt []) := by
  have hst : CtrlSim (plainCtx (hideW w)) (fun q q' a b => q = q' ∧ hideW w a b) Eq Eq Eq
      (loggedControlled f) (loggedControlled f) := by
    constructor
    · rintro q _ x _ t _ d _ a b ⟨rfl, h⟩ rfl rfl rfl
      simp only [loggedControlled]
      cases f q x t d with
      | error e => exact .err h
      | ok r =>
        refine .ok ⟨⟨rfl, ?_⟩, rfl, rfl, rfl, rfl⟩
        unfold hideW at *
        subst h
        rw [withoutObs_append, List.append_assoc]; rfl
    · intros; exact plainCtx_mono _ _
  have ho : ObsSim (plainCtx (hideW w)) (fun (q q' : Q) a b => q = q' ∧ hideW w a b) Eq Eq
      (nullObserver : Observer (Log S T) S T) record := by
    constructor
    · rintro q _ x _ t _ a b ⟨rfl, h⟩ rfl rfl
      refine .ok ⟨rfl, ?_⟩
      unfold hideW at *
      subst h
      rw [withoutObs_append]; simp [Log.withoutObs, Event.isObs]
    · intros; exact plainCtx_mono _ _
  refine (integrateAdaptiveControlled_sim (eqTimeRel A) (fun _ _ _ _ h => h.2) hst ho
    (q := q) (q' := q) (w := w) (w' := []) ⟨rfl, by simp [hideW, Log.withoutObs]⟩ rfl rfl rfl rfl).mono ?_
  rintro ⟨_, _, _, _⟩ ⟨_, _, _, _⟩ a b ⟨⟨_, _, _, h⟩, h1, h2, h3, h4⟩
  simp only at h1 h2 h3 h4
  subst h1; subst h2; subst h3; subst h4
  exact ⟨rfl, h⟩

theorem adaptive_null_ok {A : TimeArith T} {f : Q → S → T → T → Except Err (TryResult Q S T)}
    {q : Q} {x : S} {t0 t1 dt : T} {w w' : Log S T} {r : AdaptResult S T}
    (h : integrateAdaptiveControlled A (loggedControlled f) nullObserver q x t0 t1 dt w = .ok r w') :
    ∃ L, integrateAdaptiveControlled A (loggedControlled f) record q x t0 t1 dt [] = .ok r L ∧
      w' = w ++ L.withoutObs := by
  have := adaptive_null_record A f q x t0 t1 dt w
  rw [h] at this
  generalize integrateAdaptiveControlled A (loggedControlled f) record q x t0 t1 dt [] = r' at this
  cases this with
  | ok h => obtain ⟨rfl, h⟩ := h; exact ⟨_, rfl, h⟩

theorem adaptive_null_err {A : TimeArith T} {f : Q → S → T → T → Except Err (TryResult Q S T)}
    {q : Q} {x : S} {t0 t1 dt : T} {w w' : Log S T} {e : Err}
    (h : integrateAdaptiveControlled A (loggedControlled f) nullObserver q x t0 t1 dt w = .err e w') :
    ∃ L, integrateAdaptiveControlled A (loggedControlled f) record q x t0 t1 dt [] = .err e L ∧
      w' = w ++ L.withoutObs := by
  have := adaptive_null_record A f q x t0 t1 dt w
  rw [h] at this
  generalize integrateAdaptiveControlled A (loggedControlled f) record q x t0 t1 dt [] = r' at this
  cases this with
  | err h => exact ⟨_, rfl, h⟩
  | esc h _ => exact absurd h id

theorem adaptive_null_div {A : TimeArith T} {f : Q → S → T → T → Except Err (TryResult Q S T)}
    {q : Q} {x : S} {t0 t1 dt : T} {w : Log S T}
    (h : integrateAdaptiveControlled A (loggedControlled f) nullObserver q x t0 t1 dt w = .div) :
    integrateAdaptiveControlled A (loggedControlled f) record q x t0 t1 dt [] = .div := by
  have := adaptive_null_record A f q x t0 t1 dt w
  rw [h] at this
  generalize integrateAdaptiveControlled A (loggedControlled f) record q x t0 t1 dt [] = r' at this
  cases this with
  | div => rfl

theorem adaptive_null_ub {A : TimeArith T} {f : Q → S → T → T → Except Err (TryResult Q S T)}
    {q : Q} {x : S} {t0 t1 dt : T} {w : Log S T}
    (h : integrateAdaptiveControlled A (loggedControlled f) nullObserver q x t0 t1 dt w = .ub) :
    integrateAdaptiveControlled A (loggedControlled f) record q x t0 t1 dt [] = .ub := by
  have := adaptive_null_record A f q x t0 t1 dt w
  rw [h] at this
  generalize integrateAdaptiveControlled A (loggedControlled f) record q x t0 t1 dt [] = r' at this
  cases this with
  | ub => rfl

end Verif

namespace Verif
variable {Q S T : Type}

theorem adaptive_null_of_ok {A : TimeArith T} {f : Q → S → T → T → Except Err (TryResult Q S T)}
    {q : Q} {x : S} {t0 t1 dt : T} {L : Log S T} {r : AdaptResult S T}
    (h : integrateAdaptiveControlled A (loggedControlled f) record q x t0 t1 dt [] = .ok r L)
    (w : Log S T) :
    integrateAdaptiveControlled A (loggedControlled f) nullObserver q x t0 t1 dt w =
      .ok r (w ++ L.withoutObs) := by
  have := adaptive_null_record A f q x t0 t1 dt w
  rw [h] at this
  generalize integrateAdaptiveControlled A (loggedControlled f) nullObserver q x t0 t1 dt w = r' at this
  cases this with
  | ok h => obtain ⟨rfl, h'⟩ := h; rw [h']
  | esc h _ => exact absurd h id

theorem adaptive_null_of_err {A : TimeArith T} {f : Q → S → T → T → Except Err (TryResult Q S T)}
    {q : Q} {x : S} {t0 t1 dt : T} {L : Log S T} {e : Err}
    (h : integrateAdaptiveControlled A (loggedControlled f) record q x t0 t1 dt [] = .err e L)
    (w : Log S T) :
    integrateAdaptiveControlled A (loggedControlled f) nullObserver q x t0 t1 dt w =
      .err e (w ++ L.withoutObs) := by
  have := adaptive_null_record A f q x t0 t1 dt w
  rw [h] at this
  generalize integrateAdaptiveControlled A (loggedControlled f) nullObserver q x t0 t1 dt w = r' at this
  cases this with
  | err h' => rw [h']
  | esc h _ => exact absurd h id

theorem adaptive_null_of_div {A : TimeArith T} {f : Q → S → T → T → Except Err (TryResult Q S T)}
    {q : Q} {x : S} {t0 t1 dt : T}
    (h : integrateAdaptiveControlled A (loggedControlled f) record q x t0 t1 dt [] = .div)
    (w : Log S T) :
    integrateAdaptiveControlled A (loggedControlled f) nullObserver q x t0 t1 dt w = .div := by
  have := adaptive_null_record A f q x t0 t1 dt w
  rw [h] at this
  generalize integrateAdaptiveControlled A (loggedControlled f) nullObserver q x t0 t1 dt w = r' at this
  cases this with
  | div => rfl
  | esc h _ => exact absurd h id

theorem record_apply (x : S) (t : T) (w : Log S T) : record x t w = .ok () (w ++ [.obs x t]) := rfl

theorem intervalCalls_succ (X : ℕ → S) (time : ℕ → T) (L : ℕ → Log S T) (n : ℕ) :
    intervalCalls X time L (n + 1) =
      intervalCalls X time L n ++ (.obs (X n) (time n) :: (L n).withoutObs) := by
  simp [intervalCalls, List.range_succ]

theorem GridRun.mono {A : TimeArith T} {f : Q → S → T → T → Except Err (TryResult Q S T)} {q : Q}
    {x : S} {time : ℕ → T} {dt : T} {n m : ℕ} {X : ℕ → S} {D : ℕ → T} {N : ℕ → ℕ} {L : ℕ → Log S T}
    (h : GridRun A f q x time dt n X D N L) (hm : m ≤ n) : GridRun A f q x time dt m X D N L :=
  ⟨h.state0, h.dt0, fun k hk => h.interval k (by omega)⟩

/-- `k` rounds of the loop starting at grid point `m`. -/
theorem nStepsControlledLoop_grid (A : TimeArith T)
    (f : Q → S → T → T → Except Err (TryResult Q S T)) (q : Q) (t0 dt : T)
    (X : ℕ → S) (D : ℕ → T) (N : ℕ → ℕ) (L : ℕ → Log S T) (m : ℕ) :
    ∀ (j k : ℕ) (w : Log S T),
      (∀ i, m ≤ i → i < m + j → ∃ t', integrateAdaptiveControlled A (loggedControlled f) record q (X i)
        (gridTime A t0 dt i) (A.add (gridTime A t0 dt i) dt) (D i) [] =
          .ok ⟨X (i + 1), t', D (i + 1), N i⟩ (L i)) →
      nStepsControlledLoop A (loggedControlled f) record q t0 dt (j + k) m (X m) (gridTime A t0 dt m)
        (D m) (w ++ intervalCalls X (gridTime A t0 dt) L m) =
      nStepsControlledLoop A (loggedControlled f) record q t0 dt k (m + j) (X (m + j))
        (gridTime A t0 dt (m + j)) (D (m + j)) (w ++ intervalCalls X (gridTime A t0 dt) L (m + j)) := by
  intro j
  induction j generalizing m with
  | zero => intro k w _; simp
  | succ j ih =>
    intro k w h
    obtain ⟨t', ht'⟩ := h m le_rfl (by omega)
    rw [show j + 1 + k = (j + k) + 1 by omega, nStepsControlledLoop]
    rw [M.bind_ok (record_apply _ _ _), M.bind_ok (adaptive_null_of_ok ht' _)]
    have := ih (m + 1) k w (fun i h1 h2 => h i (by omega) (by omega))
    rw [show m + 1 + j = m + (j + 1) by omega] at this
    rw [← this, gridTime_succ, intervalCalls_succ]
    simp

theorem constControlled_grid (A : TimeArith T)
    (f : Q → S → T → T → Except Err (TryResult Q S T)) (q : Q) (t0 t1 dt : T)
    (X : ℕ → S) (D : ℕ → T) (N : ℕ → ℕ) (L : ℕ → Log S T) (m : ℕ) :
    ∀ (j : ℕ) (w : Log S T),
      (∀ i, m ≤ i → i < m + j → A.lessEqWithSign (A.add (gridTime A t0 dt i) dt) t1 (D i) = true ∧
        ∃ t', integrateAdaptiveControlled A (loggedControlled f) record q (X i)
        (gridTime A t0 dt i) (A.add (gridTime A t0 dt i) dt) (D i) [] =
          .ok ⟨X (i + 1), t', D (i + 1), N i⟩ (L i)) →
      let loop := whileM
        (fun s : CtrlState S T => A.lessEqWithSign (A.add s.time dt) t1 s.dt)
        (fun s => do
          record s.x s.time
          let r ← integrateAdaptiveControlled A (loggedControlled f) nullObserver q s.x s.time (A.add s.time dt) s.dt
          return ⟨r.x, A.add t0 (A.nmul (s.step + 1) dt), r.dt, s.step + 1, s.real + r.count⟩)
      loop ⟨X m, gridTime A t0 dt m, D m, m, ((List.range m).map N).sum⟩
        (w ++ intervalCalls X (gridTime A t0 dt) L m) =
      loop ⟨X (m + j), gridTime A t0 dt (m + j), D (m + j), m + j, ((List.range (m + j)).map N).sum⟩
        (w ++ intervalCalls X (gridTime A t0 dt) L (m + j)) := by
  intro j
  induction j generalizing m with
  | zero => intro w _; simp
  | succ j ih =>
    intro w h loop
    obtain ⟨hc, t', ht'⟩ := h m le_rfl (by omega)
    have := ih (m + 1) w (fun i h1 h2 => h i (by omega) (by omega))
    rw [show m + 1 + j = m + (j + 1) by omega] at this
    refine Eq.trans ?_ this
    refine whileM_step_ok (cond := fun s : CtrlState S T => A.lessEqWithSign (A.add s.time dt) t1 s.dt) hc ?_
    rw [M.bind_ok (record_apply _ _ _), M.bind_ok (adaptive_null_of_ok ht' _)]
    rw [M.pure_apply, intervalCalls_succ, gridTime_succ, List.range_succ]
    simp

/-- Either all `n` intervals are completed, or there is a first one that is not. -/
theorem gridRun_or (A : TimeArith T) (f : Q → S → T → T → Except Err (TryResult Q S T)) (q : Q)
    (x : S) (time : ℕ → T) (dt : T) (n : ℕ) :
    (∃ X D N L, GridRun A f q x time dt n X D N L) ∨
    ∃ m < n, ∃ X D N L, GridRun A f q x time dt m X D N L ∧
      ∀ r L', integrateAdaptiveControlled A (loggedControlled f) record q (X m) (time m)
        (A.add (time m) dt) (D m) [] ≠ .ok r L' := by
  induction n with
  | zero => exact .inl ⟨fun _ => x, fun _ => dt, fun _ => 0, fun _ => [], rfl, rfl, by simp⟩
  | succ n ih =>
    rcases ih with ⟨X, D, N, L, h⟩ | ⟨m, hm, h⟩
    · by_cases hr : ∃ r L', integrateAdaptiveControlled A (loggedControlled f) record q (X n) (time n)
        (A.add (time n) dt) (D n) [] = .ok r L'
      · obtain ⟨r, L', hr⟩ := hr
        refine .inl ⟨fun k => if k ≤ n then X k else r.x, fun k => if k ≤ n then D k else r.dt,
          fun k => if k < n then N k else r.count, fun k => if k < n then L k else L', ?_, ?_, ?_⟩
        · simpa using h.state0
        · simpa using h.dt0
        · intro k hk
          rcases Nat.lt_succ_iff_lt_or_eq.mp hk with hk | rfl
          · obtain ⟨t', ht⟩ := h.interval k hk
            exact ⟨t', by simpa [hk, hk.le, Nat.succ_le_of_lt hk] using ht⟩
          · exact ⟨r.t, by simpa using hr⟩
      · push Not at hr
        exact .inr ⟨n, by omega, X, D, N, L, h, hr⟩
    · exact .inr ⟨m, by omega, h⟩

theorem observations_withoutObs (l : Log S T) : l.withoutObs.observations = [] := by
  induction l with
  | nil => rfl
  | cons e l ih => cases e <;> simp_all [Log.withoutObs, Log.observations, Event.isObs]

theorem acceptCount_withoutObs (l : Log S T) : l.withoutObs.acceptCount = l.acceptCount := by
  induction l with
  | nil => rfl
  | cons e l ih =>
    simp only [Log.withoutObs, Log.acceptCount] at ih
    cases e <;> simp [Log.withoutObs, Log.acceptCount, Event.isObs, List.countP_cons] <;>
      simpa [Event.isObs] using ih

theorem intervalCalls_observations (X : ℕ → S) (time : ℕ → T) (L : ℕ → Log S T) (n : ℕ) :
    (intervalCalls X time L n).observations = (List.range n).map fun k => (X k, time k) := by
  induction n with
  | zero => rfl
  | succ n ih =>
    rw [intervalCalls_succ, observations_append, ih, List.range_succ, List.map_append]
    congr 1
    have : Log.observations (Event.obs (X n) (time n) :: (L n).withoutObs) =
      (X n, time n) :: (L n).withoutObs.observations := by simp [Log.observations]
    rw [this, observations_withoutObs]; rfl

theorem intervalCalls_acceptCount (X : ℕ → S) (time : ℕ → T) (L : ℕ → Log S T) (n : ℕ) :
    (intervalCalls X time L n).acceptCount = ((List.range n).map fun k => (L k).acceptCount).sum := by
  induction n with
  | zero => rfl
  | succ n ih =>
    rw [intervalCalls_succ, acceptCount_append, ih, List.range_succ, List.map_append]
    simp only [List.map_cons, List.map_nil, List.sum_append, List.sum_cons, List.sum_nil]
    congr 1
    have : Log.acceptCount (Event.obs (X n) (time n) :: (L n).withoutObs) = (L n).withoutObs.acceptCount := by
      simp [Log.acceptCount]
    rw [this, acceptCount_withoutObs]; rfl

theorem adaptiveControlled_ne_ub (A : TimeArith T)
    (f : Q → S → T → T → Except Err (TryResult Q S T)) (q : Q) (x : S) (t0 t1 dt : T) (w : Log S T) :
    integrateAdaptiveControlled A (loggedControlled f) record q x t0 t1 dt w ≠ .ub := by
  have key : (integrateAdaptiveControlled A (loggedControlled f) record q x t0 t1 dt w).Sat
      (fun _ _ => True) (fun _ _ => True) True := by
    unfold integrateAdaptiveControlled
    apply Res.Sat.bind
    refine (whileM_sat (fun _ _ => True) (E := fun _ _ => True) ?_ trivial).mono ?_ (fun _ _ h => h) id
    · intro p w' _ _
      rw [record_bind]
      apply Res.Sat.bind
      exact (retryLoop_sat (f := f) (P := fun _ _ _ _ => True) (fun _ _ _ _ _ _ _ _ => trivial)
        { p.1 with dt := clipDt A p.1.t t1 p.1.dt } trivial _).mono (fun _ _ _ => trivial)
        (fun _ _ _ => trivial) False.elim
    · rintro ⟨s, n⟩ w' -
      trivial
  intro h
  rw [h] at key
  exact key

/-- An interval that takes a single trial. -/
theorem adaptiveControlled_one {A : TimeArith T} {f : Q → S → T → T → Except Err (TryResult Q S T)}
    {q : Q} {x : S} {t0 t1 dt : T} {r : TryResult Q S T} (h1 : A.lessWithSign t0 t1 dt = true)
    (h2 : f q x t0 (clipDt A t0 t1 dt) = .ok r) (h3 : r.success = true)
    (h4 : A.lessWithSign r.t t1 r.dt = false) (w : Log S T) :
    integrateAdaptiveControlled A (loggedControlled f) record q x t0 t1 dt w =
      .ok ⟨r.x, r.t, r.dt, 1⟩ (w ++ [.obs x t0, .tried x t0 (clipDt A t0 t1 dt) true, .obs r.x r.t]) := by
  unfold integrateAdaptiveControlled
  have hretry : ∀ w : Log S T, retryLoop (loggedControlled f) ⟨q, x, t0, clipDt A t0 t1 dt, 0, true⟩ w =
      .ok ⟨r.q, r.x, r.t, r.dt, 1, true⟩ (w ++ [.tried x t0 (clipDt A t0 t1 dt) true]) := by
    intro w
    unfold retryLoop retryBody
    simp only [M.bind_apply, loggedControlled_ok h2, failedStepChecker, M.pure_apply, h3, defaultMaxSteps]
    norm_num [M.pure_apply]
    exact whileM_stop (by simp)
  have hbody : whileM
    (fun p : AdaptState Q S T × ℕ => A.lessWithSign p.1.t t1 p.1.dt)
    (fun p => do
      record p.1.x p.1.t
      let s ← retryLoop (loggedControlled f) { p.1 with dt := clipDt A p.1.t t1 p.1.dt }
      return ({ s with fails := 0 }, p.2 + 1))
    (⟨q, x, t0, dt, 0, true⟩, 0) w = .ok (⟨r.q, r.x, r.t, r.dt, 0, true⟩, 1)
      (w ++ [.obs x t0, .tried x t0 (clipDt A t0 t1 dt) true]) := by
    refine (whileM_step_ok (cond := fun p : AdaptState Q S T × ℕ => A.lessWithSign p.1.t t1 p.1.dt) h1
      (s' := (⟨r.q, r.x, r.t, r.dt, 0, true⟩, 1))
      (w' := w ++ [.obs x t0, .tried x t0 (clipDt A t0 t1 dt) true]) ?_).trans (whileM_stop
        (cond := fun p : AdaptState Q S T × ℕ => A.lessWithSign p.1.t t1 p.1.dt) h4)
    rw [record_bind, M.bind_ok (hretry _)]
    simp [M.pure_apply]
  rw [M.bind_ok hbody]
  simp [record_bind, M.pure_apply]

end Verif
