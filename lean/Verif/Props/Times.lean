import Verif.Lemmas.Controlled
import Verif.Props.LessWithSign
import Verif.Props.IntegrateControlled
import Verif.Spec.Times

/-!
# C08: integrate_times with a fixed-step or controlled stepper
-/

namespace Verif
variable {Q S : Type}

theorem stepCount_append {T : Type} (l l' : Log S T) :
    Log.stepCount (l ++ l') = l.stepCount + l'.stepCount := by
  simp [Log.stepCount, List.countP_append]

section
variable {K : Type} [Field K] [LinearOrder K] [IsStrictOrderedRing K]

theorem minAbs_remaining {eps t next dt d : K} (heps : 0 ≤ eps)
    (hd : SameDir dt d)
    (hlt : (TimeArith.exact K eps).lessWithSign t next d = true) :
    SameDir dt ((TimeArith.exact K eps).minAbs dt (next - t)) ∧
    |(TimeArith.exact K eps).minAbs dt (next - t)| ≤ |dt| ∧
    ((TimeArith.exact K eps).minAbs dt (next - t) = dt ∨
      t + (TimeArith.exact K eps).minAbs dt (next - t) = next) ∧
    ¬ Beyond 0 dt (t + (TimeArith.exact K eps).minAbs dt (next - t)) next := by
  rw [exact_less, ← dirSign_of_sameDir hd] at hlt
  have hs : SameDir dt (next - t) := (sameDir_iff hd.symm.ne_zero).mpr (by linarith)
  obtain ⟨h1, h2, h3, -⟩ := min_abs_max_abs_spec eps dt (next - t) hs
  refine ⟨h3, by rw [h2]; exact min_le_left _ _, ?_, ?_⟩
  · rcases h1 with h1 | h1
    · exact .inl h1
    · right; rw [h1]; ring
  · rw [not_beyond_iff]
    have e1 := dirSign_mul_self (next - t)
    rw [← dirSign_of_sameDir hs] at e1
    have e2 := dirSign_mul_self ((TimeArith.exact K eps).minAbs dt (next - t))
    rw [← dirSign_of_sameDir h3] at e2
    have : dirSign dt * (t + (TimeArith.exact K eps).minAbs dt (next - t) - next) =
      dirSign dt * (TimeArith.exact K eps).minAbs dt (next - t) - dirSign dt * (next - t) := by ring
    rw [this, e1, e2, h2]
    linarith [min_le_right |dt| |next - t|]

/-- One interval. -/
theorem timesBasicInner_sat [Archimedean K] (eps : K) (heps : 0 ≤ eps)
    (step : Q → S → K → K → Except Err (Q × S)) (dt next : K) (hdt : dt ≠ 0)
    (s : TimesState Q S K) (hdir : SameDir dt s.dt) (hs : ¬ Beyond 0 dt s.time next) (w : Log S K) :
    (timesBasicInner (TimeArith.exact K eps) (loggedBasic step) dt next s w).Sat
      (fun s' w' => SameDir dt s'.dt ∧ w'.observations = w.observations ∧
        w'.stepCount + s.steps = w.stepCount + s'.steps ∧
        ∃ path : List (S × K), path.head? = some (s.x, s.time) ∧
          path.getLast? = some (s'.x, s'.time) ∧ |s'.time - next| ≤ eps ∧
          path.IsChain (FixedStep step dt next))
      (fun _ w' => w'.observations = w.observations) False := by
  have hpos : 0 < |dt| := abs_pos.mpr hdt
  obtain ⟨N, hN⟩ := Archimedean.arch (dirSign dt * (next - s.time)) hpos
  rw [nsmul_eq_mul] at hN
  unfold timesBasicInner
  refine (whileM_sat_total (W := Log S K)
    (I := fun s' w' => SameDir dt s'.dt ∧ w'.observations = w.observations ∧
        w'.stepCount + s.steps = w.stepCount + s'.steps ∧ ¬ Beyond 0 dt s'.time next ∧ s.steps ≤ s'.steps ∧
        (s'.time = next ∨ ((s'.steps - s.steps : ℕ) : K) * |dt| ≤ dirSign dt * (s'.time - s.time)) ∧
        ∃ path : List (S × K), path.head? = some (s.x, s.time) ∧
          path.getLast? = some (s'.x, s'.time) ∧ path.IsChain (FixedStep step dt next))
    (E := fun _ w' => w'.observations = w.observations) (D := False)
    (μ := fun s' _ => N - (s'.steps - s.steps)) ?_ ?_).mono ?_ (fun _ _ h => h) id
  · rintro ⟨q1, x1, t1, d1, n1, _⟩ w1 ⟨hd, hobs, hcnt, hnb, hle, hprog, path, hp1, hp2, hp3⟩ hc
    simp only at hd hobs hcnt hnb hle hprog hp2 hc ⊢
    obtain ⟨a1, a2, a3, a4⟩ := minAbs_remaining heps hd hc
    have hlt := hc
    rw [exact_less, ← dirSign_of_sameDir hd] at hlt
    have hprog' : ((n1 - s.steps : ℕ) : K) * |dt| ≤ dirSign dt * (t1 - s.time) := by
      rcases hprog with h | h
      · subst h; exfalso; simp at hlt; linarith
      · exact h
    generalize hh : (TimeArith.exact K eps).minAbs dt (next - t1) = h at a1 a2 a3 a4
    simp only [show (TimeArith.exact K eps).sub next t1 = next - t1 from rfl, hh]
    cases hst : step q1 x1 t1 h with
    | error e =>
      have : (loggedBasic step).doStep q1 x1 t1 h w1 = .err e (w1 ++ [.step x1 t1 h]) := by
        simp [loggedBasic, hst]
      rw [M.bind_err this]
      show Log.observations _ = _
      rw [observations_append, hobs]; simp [Log.observations]
    | ok r =>
      have hok : (loggedBasic step).doStep q1 x1 t1 h w1 = .ok r (w1 ++ [.step x1 t1 h]) := by
        simp [loggedBasic, hst]
      rw [M.bind_ok hok]
      have hnN : n1 - s.steps < N := by
        by_contra hge
        have h1 : (N : K) ≤ ((n1 - s.steps : ℕ) : K) := by exact_mod_cast Nat.not_lt.mp hge
        have h2 : (N : K) * |dt| ≤ ((n1 - s.steps : ℕ) : K) * |dt| := mul_le_mul_of_nonneg_right h1 hpos.le
        have h3 : dirSign dt * (t1 - s.time) = dirSign dt * (next - s.time) - dirSign dt * (next - t1) := by
          ring
        linarith
      refine ⟨⟨a1, ?_, ?_, a4, by simp only; omega, ?_, path ++ [(r.2, t1 + h)], ?_, by simp; rfl, ?_⟩, ?_⟩
      · rw [observations_append, hobs]; simp [Log.observations]
      · rw [stepCount_append]; simp [Log.stepCount] at hcnt ⊢; omega
      · rcases a3 with a3 | a3
        · right
          have e : dirSign dt * (t1 + h - s.time) = dirSign dt * (t1 - s.time) + |dt| := by
            rw [a3, ← dirSign_mul_self dt]; ring
          show _ ≤ dirSign dt * (t1 + h - s.time)
          rw [e, show n1 + 1 - s.steps = (n1 - s.steps) + 1 by omega]; push_cast; linarith
        · left; exact a3
      · cases path with
        | nil => cases hp1
        | cons a l => simpa using hp1
      · rw [List.isChain_append]
        refine ⟨hp3, List.isChain_singleton _, ?_⟩
        intro a ha b hb
        rw [hp2] at ha
        cases ha
        simp at hb
        subst hb
        exact ⟨q1, r.1, h, hst, rfl, a1, a2, a3, a4⟩
      · simp only; omega
  · exact ⟨hdir, rfl, rfl, hs, le_rfl, .inr (by simp), [(s.x, s.time)], rfl, rfl, List.isChain_singleton _⟩
  · rintro s' w' ⟨⟨hd, hobs, hcnt, hnb, -, -, path, hp1, hp2, hp3⟩, hc⟩
    refine ⟨hd, hobs, hcnt, path, hp1, hp2, ?_, hp3⟩
    rw [exact_less_false, ← dirSign_of_sameDir hd] at hc
    have h2 := (not_beyond_iff _ _ _ _).mp hnb
    rw [← abs_dirSign_mul dt, abs_le]
    have : dirSign dt * (next - s'.time) = - (dirSign dt * (s'.time - next)) := by ring
    constructor <;> linarith

theorem TimesObserved.cons {Step : K → S × K → S × K → Prop} {eps : K} {x y xl : S} {t next : K}
    {rest : List K} {obs : List (S × K)} (h : TimesObserved Step eps y (next :: rest) xl obs)
    (hr : ReachedBy Step eps (x, t) (y, next)) :
    TimesObserved Step eps x (t :: next :: rest) xl ((x, t) :: obs) := by
  obtain ⟨h1, h2, h3, h4⟩ := h
  cases obs with
  | nil => cases h2
  | cons b l =>
    obtain ⟨b1, b2⟩ := b
    simp only [List.head?_cons, Option.map_some, Option.some.injEq, List.map_cons, List.cons.injEq] at h1 h2
    obtain ⟨rfl, h1⟩ := h1
    subst h2
    exact ⟨by simp [h1], rfl, by simpa using h3, by simpa using ⟨hr, h4⟩⟩

theorem MonotoneTimes.head {dt t next : K} {rest : List K} (h : MonotoneTimes dt (t :: next :: rest)) :
    ¬ Beyond 0 dt t next := by
  have := (List.pairwise_cons.mp h).1 next (by simp)
  unfold Beyond
  split_ifs with hp
  · rw [if_pos hp] at this; simpa using this
  · rw [if_neg hp] at this; simpa using this

/-- **C08** (fixed step).  For a non-empty monotone sequence of times `integrate_times` terminates.  If
it returns, the observer has been called exactly at the requested times, in order; every observed state is
reached from the previous one by steps of length `dt` or ending exactly at the next requested time, never
longer than `dt` and never leading beyond the next requested time; the step count is returned.  If the
stepper throws, the observer has seen an initial part of the requested times. -/
theorem integrate_times_basic_spec [Archimedean K] (eps : K) (heps : 0 ≤ eps)
    (step : Q → S → K → K → Except Err (Q × S)) (q : Q) (x : S) (times : List K) (hne : times ≠ [])
    (dt : K) (hdt : dt ≠ 0) (hmono : MonotoneTimes dt times) (w : Log S K) :
    (∃ r w' obs, integrateTimesBasic (TimeArith.exact K eps) (loggedBasic step) record q x times dt w =
        .ok r w' ∧ w'.observations = w.observations ++ obs ∧
        w'.stepCount = w.stepCount + r.2 ∧ TimesObserved (FixedStep step dt) eps x times r.1 obs) ∨
    (∃ e w' obs, integrateTimesBasic (TimeArith.exact K eps) (loggedBasic step) record q x times dt w =
        .err e w' ∧ w'.observations = w.observations ++ obs ∧ obs.map Prod.snd <+: times ∧
        obs.head?.map Prod.fst = some x ∧ obs.IsChain (ReachedBy (FixedStep step dt) eps)) := by
  have key : ∀ (times : List K) (s : TimesState Q S K) (w : Log S K), times ≠ [] → SameDir dt s.dt →
      MonotoneTimes dt times →
      (timesBasicLoop (TimeArith.exact K eps) (loggedBasic step) record dt times s w).Sat
      (fun r w' => ∃ obs, w'.observations = w.observations ++ obs ∧
        w'.stepCount + s.steps = w.stepCount + r.2 ∧
        TimesObserved (FixedStep step dt) eps s.x times r.1 obs)
      (fun _ w' => ∃ obs, w'.observations = w.observations ++ obs ∧ obs.map Prod.snd <+: times ∧
        obs.head?.map Prod.fst = some s.x ∧ obs.IsChain (ReachedBy (FixedStep step dt) eps)) False := by
    intro times
    induction times with
    | nil => intro s w h; exact absurd rfl h
    | cons t rest ih =>
      intro s w _ hd hmono
      cases rest with
      | nil =>
        unfold timesBasicLoop
        rw [record_bind]
        refine ⟨[(s.x, t)], ?_, ?_, rfl, rfl, rfl, List.isChain_singleton _⟩
        · rw [observations_append]; simp [Log.observations]
        · rw [stepCount_append]; simp [Log.stepCount]
      | cons next rest =>
        unfold timesBasicLoop
        rw [record_bind]
        apply Res.Sat.bind
        refine (timesBasicInner_sat eps heps step dt next hdt { s with time := t } hd hmono.head _).mono
          ?_ ?_ id
        · rintro s' w' ⟨hd', hobs', hcnt', path, hp1, hp2, hp3, hp4⟩
          refine (ih s' w' (by simp) hd' (List.pairwise_cons.mp hmono).2).mono ?_ ?_ id
          · rintro r w'' ⟨obs, ho, hc, hT⟩
            refine ⟨(s.x, t) :: obs, ?_, ?_, hT.cons ⟨path, _, hp1, hp2, hp3, hp4⟩⟩
            · rw [ho, hobs', observations_append]; simp [Log.observations]
            · rw [stepCount_append] at hcnt'; simp [Log.stepCount] at hcnt' hc ⊢; omega
          · rintro e w'' ⟨obs, ho, hpre, hhead, hchain⟩
            refine ⟨(s.x, t) :: obs, ?_, ?_, rfl, ?_⟩
            · rw [ho, hobs', observations_append]; simp [Log.observations]
            · simpa using hpre
            · cases obs with
              | nil => exact List.isChain_singleton _
              | cons b l =>
                obtain ⟨b1, b2⟩ := b
                simp only [List.head?_cons, Option.map_some, Option.some.injEq] at hhead
                subst hhead
                have hb2 : b2 = next := by
                  obtain ⟨l', hl'⟩ := hpre
                  simp at hl'; exact hl'.1
                subst hb2
                rw [List.isChain_cons_cons]
                exact ⟨⟨path, _, hp1, hp2, hp3, hp4⟩, hchain⟩
        · intro e w' ho
          refine ⟨[(s.x, t)], ?_, by simp, rfl, List.isChain_singleton _⟩
          rw [ho, observations_append]; simp [Log.observations]
  have h := key times ⟨q, x, (TimeArith.exact K eps).zero, dt, 0, 0⟩ w hne (SameDir.refl hdt) hmono
  unfold integrateTimesBasic
  revert h
  cases timesBasicLoop (TimeArith.exact K eps) (loggedBasic step) record dt times
    ⟨q, x, (TimeArith.exact K eps).zero, dt, 0, 0⟩ w with
  | ok r w' =>
    rintro ⟨obs, h1, h2, h3⟩
    exact .inl ⟨r, w', obs, rfl, h1, by simpa using h2, h3⟩
  | err e w' =>
    rintro ⟨obs, h1, h2, h3, h4⟩
    exact .inr ⟨e, w', obs, rfl, h1, h2, h3, h4⟩
  | ub => intro h; exact h.elim
  | div => intro h; exact h.elim

/-! ## Controlled stepper -/

theorem not_beyond_weaken {eps dt a b : K} (heps : 0 ≤ eps) (h : ¬ Beyond 0 dt a b) :
    ¬ Beyond eps dt a b := by
  rw [not_beyond_iff] at *; linarith

/-- One trial of the inner loop. -/
theorem timesControlledBody_cases (eps : K) (heps : 0 ≤ eps)
    (f : Q → S → K → K → Except Err (TryResult Q S K)) (hf : ExactContract eps f) (dt next : K)
    (s : TimesState Q S K) (hdir : SameDir dt s.dt)
    (hc : (TimeArith.exact K eps).lessWithSign s.time next s.dt = true) (w : Log S K) :
    (∃ e w', timesControlledBody (TimeArith.exact K eps) (loggedControlled f) next s w = .err e w' ∧
      w'.observations = w.observations) ∨
    (∃ h r, f s.q s.x s.time h = .ok r ∧ r.success = true ∧ SameDir dt h ∧ |h| ≤ |s.dt| ∧
      (h = s.dt ∨ s.time + h = next) ∧ ¬ Beyond 0 dt (s.time + h) next ∧
      timesControlledBody (TimeArith.exact K eps) (loggedControlled f) next s w =
        .ok ⟨r.q, r.x, r.t, (TimeArith.exact K eps).maxAbs s.dt r.dt, s.steps + 1, 0⟩
          (w ++ [.tried s.x s.time h true]) ∧
      SameDir dt ((TimeArith.exact K eps).maxAbs s.dt r.dt) ∧
      |s.dt| ≤ |(TimeArith.exact K eps).maxAbs s.dt r.dt|) ∨
    (∃ h r, f s.q s.x s.time h = .ok r ∧ r.success = false ∧ SameDir dt h ∧ s.fails < 500 ∧
      timesControlledBody (TimeArith.exact K eps) (loggedControlled f) next s w =
        .ok ⟨r.q, r.x, r.t, r.dt, s.steps, s.fails + 1⟩ (w ++ [.tried s.x s.time h false]) ∧
      SameDir dt r.dt) := by
  obtain ⟨a1, a2, a3, a4⟩ := minAbs_remaining heps (SameDir.refl hdir.ne_zero) hc
  unfold timesControlledBody
  simp only [show (TimeArith.exact K eps).sub next s.time = next - s.time from rfl]
  generalize (TimeArith.exact K eps).minAbs s.dt (next - s.time) = h at a1 a2 a3 a4
  have hdh := hdir.trans a1
  cases hr : f s.q s.x s.time h with
  | error e =>
    left
    exact ⟨e, w, M.bind_err (loggedControlled_err hr w) _, rfl⟩
  | ok r =>
    have hd := hf.dir _ _ _ _ _ hr a1.ne_zero
    cases hsucc : r.success with
    | true =>
      right; left
      obtain ⟨-, -, -, -, m1, m2⟩ := min_abs_max_abs_spec eps s.dt r.dt (a1.trans hd)
      refine ⟨h, r, hr, hsucc, hdh, a2, a3, by rwa [beyond_congr hdir], ?_, hdir.trans m2, ?_⟩
      · rw [M.bind_ok (loggedControlled_ok hr w)]
        simp [hsucc, M.pure_apply]
      · rw [m1]; exact le_max_left _ _
    | false =>
      by_cases hlim : s.fails < 500
      · right; right
        refine ⟨h, r, hr, hsucc, hdh, hlim, ?_, hdir.trans (a1.trans hd)⟩
        rw [M.bind_ok (loggedControlled_ok hr w)]
        simp only [hsucc, Bool.false_eq_true, if_false]
        simp [failedStepChecker, defaultMaxSteps, M.bind_apply, M.pure_apply, not_le.mpr hlim]
      · left
        refine ⟨.stepAdjustment, w ++ [.tried s.x s.time h false], ?_, ?_⟩
        · rw [M.bind_ok (loggedControlled_ok hr w)]
          simp only [hsucc, Bool.false_eq_true, if_false]
          simp [failedStepChecker, defaultMaxSteps, M.bind_apply, not_lt.mp hlim, M.throw]
        · rw [observations_append]; simp [Log.observations]

/-- One interval. -/
theorem timesControlledInner_sat (eps : K) (heps : 0 ≤ eps)
    (f : Q → S → K → K → Except Err (TryResult Q S K)) (hf : ExactContract eps f) (dt next : K)
    (s : TimesState Q S K) (hdir : SameDir dt s.dt) (hs : ¬ Beyond 0 dt s.time next) (w : Log S K) :
    (timesControlledInner (TimeArith.exact K eps) (loggedControlled f) next s w).Sat
      (fun s' w' => SameDir dt s'.dt ∧ w'.observations = w.observations ∧
        w'.acceptCount + s.steps = w.acceptCount + s'.steps ∧
        ∃ path : List (S × K), path.head? = some (s.x, s.time) ∧
          path.getLast? = some (s'.x, s'.time) ∧ |s'.time - next| ≤ eps ∧
          path.IsChain (AcceptedStep f eps dt next))
      (fun _ w' => w'.observations = w.observations) True := by
  unfold timesControlledInner
  refine (whileM_sat (W := Log S K)
    (I := fun s' w' => SameDir dt s'.dt ∧ w'.observations = w.observations ∧
        w'.acceptCount + s.steps = w.acceptCount + s'.steps ∧ ¬ Beyond 0 dt s'.time next ∧
        ∃ path : List (S × K), path.head? = some (s.x, s.time) ∧
          path.getLast? = some (s'.x, s'.time) ∧ path.IsChain (AcceptedStep f eps dt next))
    (E := fun _ w' => w'.observations = w.observations) ?_ ?_).mono ?_ (fun _ _ h => h) id
  · rintro s1 w1 ⟨hd, hobs, hcnt, hnb, path, hp1, hp2, hp3⟩ hc
    rcases timesControlledBody_cases eps heps f hf dt next s1 hd hc w1 with
      ⟨e, w', hb, ho⟩ | ⟨h, r, hr, hsucc, hh, -, a3, a4, hb, hd', -⟩ | ⟨h, r, hr, hsucc, hh, -, hb, hd'⟩
    · rw [hb]; exact ho.trans hobs
    · rw [hb]
      have ht := hf.success_time _ _ _ _ _ hr hsucc
      change r.t = s1.time + h at ht
      refine ⟨hd', ?_, ?_, by simpa only [ht] using a4, path ++ [(r.x, r.t)], ?_, by simp, ?_⟩
      · rw [observations_append, hobs]; simp [Log.observations]
      · rw [acceptCount_append]; simp [Log.acceptCount] at hcnt ⊢; omega
      · cases path with
        | nil => cases hp1
        | cons a l => simpa using hp1
      · rw [List.isChain_append]
        refine ⟨hp3, List.isChain_singleton _, ?_⟩
        intro a ha b hb
        rw [hp2] at ha
        cases ha
        simp at hb
        subst hb
        exact ⟨s1.q, h, r, hr, hsucc, rfl, rfl, ht, hh, not_beyond_weaken heps (by simpa only [ht] using a4)⟩
    · rw [hb]
      obtain ⟨hx, ht⟩ := hf.fail_same _ _ _ _ _ hr hsucc
      refine ⟨hd', ?_, ?_, by simpa only [ht] using hnb, path, hp1, by simpa only [hx, ht] using hp2, hp3⟩
      · rw [observations_append, hobs]; simp [Log.observations]
      · rw [acceptCount_append]; simp [Log.acceptCount] at hcnt ⊢; omega
  · exact ⟨hdir, rfl, rfl, hs, [(s.x, s.time)], rfl, rfl, List.isChain_singleton _⟩
  · rintro s' w' ⟨⟨hd, hobs, hcnt, hnb, path, hp1, hp2, hp3⟩, hc⟩
    refine ⟨hd, hobs, hcnt, path, hp1, hp2, ?_, hp3⟩
    rw [exact_less_false, ← dirSign_of_sameDir hd] at hc
    have h2 := (not_beyond_iff _ _ _ _).mp hnb
    rw [← abs_dirSign_mul dt, abs_le]
    have : dirSign dt * (next - s'.time) = - (dirSign dt * (s'.time - next)) := by ring
    constructor <;> linarith

/-- The outer loop. -/
theorem timesControlledLoop_sat (eps : K) (heps : 0 ≤ eps)
    (f : Q → S → K → K → Except Err (TryResult Q S K)) (hf : ExactContract eps f) (dt : K) :
    ∀ (times : List K) (s : TimesState Q S K) (w : Log S K), times ≠ [] → SameDir dt s.dt →
      MonotoneTimes dt times →
      (timesControlledLoop (TimeArith.exact K eps) (loggedControlled f) record times s w).Sat
      (fun r w' => ∃ obs, w'.observations = w.observations ++ obs ∧
        w'.acceptCount + s.steps = w.acceptCount + r.2 ∧
        TimesObserved (AcceptedStep f eps dt) eps s.x times r.1 obs)
      (fun _ w' => ∃ obs, w'.observations = w.observations ++ obs ∧ obs.map Prod.snd <+: times ∧
        obs.head?.map Prod.fst = some s.x ∧ obs.IsChain (ReachedBy (AcceptedStep f eps dt) eps)) True := by
  intro times
  induction times with
  | nil => intro s w h; exact absurd rfl h
  | cons t rest ih =>
    intro s w _ hd hmono
    cases rest with
    | nil =>
      unfold timesControlledLoop
      rw [record_bind]
      refine ⟨[(s.x, t)], ?_, ?_, rfl, rfl, rfl, List.isChain_singleton _⟩
      · rw [observations_append]; simp [Log.observations]
      · rw [acceptCount_append]; simp [Log.acceptCount]
    | cons next rest =>
      unfold timesControlledLoop
      rw [record_bind]
      apply Res.Sat.bind
      refine (timesControlledInner_sat eps heps f hf dt next { s with time := t } hd hmono.head _).mono
        ?_ ?_ id
      · rintro s' w' ⟨hd', hobs', hcnt', path, hp1, hp2, hp3, hp4⟩
        refine (ih s' w' (by simp) hd' (List.pairwise_cons.mp hmono).2).mono ?_ ?_ id
        · rintro r w'' ⟨obs, ho, hc, hT⟩
          refine ⟨(s.x, t) :: obs, ?_, ?_, hT.cons ⟨path, _, hp1, hp2, hp3, hp4⟩⟩
          · rw [ho, hobs', observations_append]; simp [Log.observations]
          · rw [acceptCount_append] at hcnt'; simp [Log.acceptCount] at hcnt' hc ⊢; omega
        · rintro e w'' ⟨obs, ho, hpre, hhead, hchain⟩
          refine ⟨(s.x, t) :: obs, ?_, ?_, rfl, ?_⟩
          · rw [ho, hobs', observations_append]; simp [Log.observations]
          · simpa using hpre
          · cases obs with
            | nil => exact List.isChain_singleton _
            | cons b l =>
              obtain ⟨b1, b2⟩ := b
              simp only [List.head?_cons, Option.map_some, Option.some.injEq] at hhead
              subst hhead
              have hb2 : b2 = next := by
                obtain ⟨l', hl'⟩ := hpre
                simp at hl'; exact hl'.1
              subst hb2
              rw [List.isChain_cons_cons]
              exact ⟨⟨path, _, hp1, hp2, hp3, hp4⟩, hchain⟩
      · intro e w' ho
        refine ⟨[(s.x, t)], ?_, by simp, rfl, List.isChain_singleton _⟩
        rw [ho, observations_append]; simp [Log.observations]

/-- **C08** (controlled stepper).  Whenever `integrate_times` returns, the observer has been called exactly
at the requested times, in order; every observed state is reached from the previous one by accepted steps
that do not lead beyond the next requested time `(+eps)`; the number of accepted steps is returned. -/
theorem integrate_times_controlled_spec (eps : K) (heps : 0 ≤ eps)
    (f : Q → S → K → K → Except Err (TryResult Q S K)) (hf : ExactContract eps f)
    (q : Q) (x : S) (times : List K) (hne : times ≠ []) (dt : K) (hdt : dt ≠ 0)
    (hmono : MonotoneTimes dt times) (w w' : Log S K) (r : S × ℕ)
    (hrun : integrateTimesControlled (TimeArith.exact K eps) (loggedControlled f) record q x times dt w =
      .ok r w') :
    ∃ obs, w'.observations = w.observations ++ obs ∧ w'.acceptCount = w.acceptCount + r.2 ∧
      TimesObserved (AcceptedStep f eps dt) eps x times r.1 obs := by
  obtain ⟨obs, h1, h2, h3⟩ := (timesControlledLoop_sat eps heps f hf dt times
    ⟨q, x, (TimeArith.exact K eps).zero, dt, 0, 0⟩ w hne (SameDir.refl hdt) hmono).of_ok hrun
  exact ⟨obs, h1, by simpa using h2, h3⟩

/-- **C08** (controlled stepper, exception): the observer has seen an initial part of the requested
times. -/
theorem integrate_times_controlled_exception (eps : K) (heps : 0 ≤ eps)
    (f : Q → S → K → K → Except Err (TryResult Q S K)) (hf : ExactContract eps f)
    (q : Q) (x : S) (times : List K) (hne : times ≠ []) (dt : K) (hdt : dt ≠ 0)
    (hmono : MonotoneTimes dt times) (w w' : Log S K) (e : Err)
    (hrun : integrateTimesControlled (TimeArith.exact K eps) (loggedControlled f) record q x times dt w =
      .err e w') :
    ∃ obs, w'.observations = w.observations ++ obs ∧ obs.map Prod.snd <+: times ∧
      obs.head?.map Prod.fst = some x ∧ obs.IsChain (ReachedBy (AcceptedStep f eps dt) eps) :=
  (timesControlledLoop_sat eps heps f hf dt times
    ⟨q, x, (TimeArith.exact K eps).zero, dt, 0, 0⟩ w hne (SameDir.refl hdt) hmono).of_err hrun

/-- One interval terminates. -/
theorem timesControlledInner_terminates [Archimedean K] (eps : K) (heps : 0 ≤ eps)
    (f : Q → S → K → K → Except Err (TryResult Q S K)) (hf : ExactContract eps f)
    (g : K) (hg : 0 < g)
    (hrej : ∀ q x t d r, f q x t d = .ok r → r.success = false → g ≤ |r.dt|)
    (dt next : K) (s : TimesState Q S K) (hdir : SameDir dt s.dt) (hgs : g ≤ |s.dt|) (w : Log S K) :
    (timesControlledInner (TimeArith.exact K eps) (loggedControlled f) next s w).Sat
      (fun s' _ => SameDir dt s'.dt ∧ g ≤ |s'.dt|) (fun _ _ => True) False := by
  obtain ⟨N, hN⟩ := Archimedean.arch (dirSign dt * (next - s.time)) hg
  rw [nsmul_eq_mul] at hN
  unfold timesControlledInner
  refine (whileM_sat_total (W := Log S K)
    (I := fun s' _ => SameDir dt s'.dt ∧ g ≤ |s'.dt| ∧ s.steps ≤ s'.steps ∧ (s'.fails ≤ max 500 s.fails) ∧
      (s'.time = next ∨ ((s'.steps - s.steps : ℕ) : K) * g ≤ dirSign dt * (s'.time - s.time)))
    (E := fun _ _ => True) (D := False)
    (μ := fun s' _ => (N - (s'.steps - s.steps)) * (max 500 s.fails + 1) + (max 500 s.fails - s'.fails))
      ?_ ?_).mono ?_ (fun _ _ h => h) id
  · rintro s1 w1 ⟨hd, hgd, hle, hfl, hprog⟩ hc
    have hlt := hc
    rw [exact_less, ← dirSign_of_sameDir hd] at hlt
    have hprog' : ((s1.steps - s.steps : ℕ) : K) * g ≤ dirSign dt * (s1.time - s.time) := by
      rcases hprog with h | h
      · rw [h] at hlt; exfalso; simp at hlt; linarith
      · exact h
    have hnN : s1.steps - s.steps < N := by
      by_contra hge
      have h1 : (N : K) ≤ ((s1.steps - s.steps : ℕ) : K) := by exact_mod_cast Nat.not_lt.mp hge
      have h2 : (N : K) * g ≤ ((s1.steps - s.steps : ℕ) : K) * g := mul_le_mul_of_nonneg_right h1 hg.le
      have h3 : dirSign dt * (s1.time - s.time) =
          dirSign dt * (next - s.time) - dirSign dt * (next - s1.time) := by ring
      linarith
    rcases timesControlledBody_cases eps heps f hf dt next s1 hd hc w1 with
      ⟨e, w', hb, ho⟩ | ⟨h, r, hr, hsucc, hh, -, a3, a4, hb, hd', hmag⟩ |
      ⟨h, r, hr, hsucc, hh, hlim, hb, hd'⟩
    · rw [hb]; trivial
    · rw [hb]
      have ht := hf.success_time _ _ _ _ _ hr hsucc
      change r.t = s1.time + h at ht
      refine ⟨⟨hd', hgd.trans hmag, by simp only; omega, by simp only; omega, ?_⟩, ?_⟩
      · rcases a3 with a3 | a3
        · right
          have e : dirSign dt * (s1.time + h - s.time) = dirSign dt * (s1.time - s.time) + |h| := by
            rw [← dirSign_mul_self h, ← dirSign_of_sameDir hh]; ring
          have hgh : g ≤ |h| := by rw [a3]; exact hgd
          simp only [ht]
          rw [e, show s1.steps + 1 - s.steps = (s1.steps - s.steps) + 1 by omega]; push_cast; linarith
        · left; simp only [ht]; exact a3
      · simp only
        obtain ⟨m, hm⟩ : ∃ m, N - (s1.steps - s.steps) = m + 1 := ⟨N - (s1.steps - s.steps) - 1, by omega⟩
        rw [hm, show N - (s1.steps + 1 - s.steps) = m by omega, Nat.add_mul]
        omega
    · rw [hb]
      obtain ⟨hx, ht⟩ := hf.fail_same _ _ _ _ _ hr hsucc
      refine ⟨⟨hd', hrej _ _ _ _ _ hr hsucc, hle, by simp only; omega, ?_⟩, ?_⟩
      · right; simp only [ht]; exact hprog'
      · simp only
        omega
  · exact ⟨hdir, hgs, le_rfl, by omega, .inr (by simp)⟩
  · rintro s' w' ⟨⟨h1, h2, -⟩, -⟩
    exact ⟨h1, h2⟩

/-- **C08** (controlled stepper, termination).  If a rejection never proposes less than `g > 0` in
magnitude, `integrate_times` returns or throws. -/
theorem integrate_times_controlled_terminates [Archimedean K] (eps : K) (heps : 0 ≤ eps)
    (f : Q → S → K → K → Except Err (TryResult Q S K)) (hf : ExactContract eps f)
    (g : K) (hg : 0 < g)
    (hrej : ∀ q x t d r, f q x t d = .ok r → r.success = false → g ≤ |r.dt|)
    (q : Q) (x : S) (times : List K) (hne : times ≠ []) (dt : K) (hdt : g ≤ |dt|) (w : Log S K) :
    (∃ r w', integrateTimesControlled (TimeArith.exact K eps) (loggedControlled f) record q x times dt w =
      .ok r w') ∨
    (∃ e w', integrateTimesControlled (TimeArith.exact K eps) (loggedControlled f) record q x times dt w =
      .err e w') := by
  have hdt0 : dt ≠ 0 := by
    intro h; rw [h, abs_zero] at hdt; exact absurd hdt (not_le.mpr hg)
  have key : ∀ (times : List K) (s : TimesState Q S K) (w : Log S K), times ≠ [] → SameDir dt s.dt →
      g ≤ |s.dt| →
      (timesControlledLoop (TimeArith.exact K eps) (loggedControlled f) record times s w).Sat
      (fun _ _ => True) (fun _ _ => True) False := by
    intro times
    induction times with
    | nil => intro s w h; exact absurd rfl h
    | cons t rest ih =>
      intro s w _ hd hgs
      cases rest with
      | nil => unfold timesControlledLoop; rw [record_bind]; trivial
      | cons next rest =>
        unfold timesControlledLoop
        rw [record_bind]
        apply Res.Sat.bind
        refine (timesControlledInner_terminates eps heps f hf g hg hrej dt next { s with time := t } hd
          hgs _).mono ?_ (fun _ _ h => h) id
        rintro s' w' ⟨hd', hgs'⟩
        exact ih s' w' (by simp) hd' hgs'
  have h := key times ⟨q, x, (TimeArith.exact K eps).zero, dt, 0, 0⟩ w hne (SameDir.refl hdt0) hdt
  unfold integrateTimesControlled
  revert h
  cases timesControlledLoop (TimeArith.exact K eps) (loggedControlled f) record times
    ⟨q, x, (TimeArith.exact K eps).zero, dt, 0, 0⟩ w with
  | ok r w' => intro _; exact .inl ⟨r, w', rfl⟩
  | err e w' => intro _; exact .inr ⟨e, w', rfl⟩
  | ub => intro h; exact h.elim
  | div => intro h; exact h.elim

/-- Non-vacuity of C08: irregular backward times with a repetition.  (`demoTry_contract` provides a
contract-abiding controlled stepper.) -/
example : MonotoneTimes (-1/2 : ℚ) [1, 1/3, 1/3, -2] ∧ ([1, 1/3, 1/3, -2] : List ℚ) ≠ [] := by
  refine ⟨?_, by simp⟩
  unfold MonotoneTimes
  norm_num

/-- Dereferencing an empty range is undefined behaviour: with these stepper categories
`integrate_times` must not be called with an empty range. -/
theorem integrate_times_empty_ub {W T : Type} (A : TimeArith T) (st : BasicStepper Q W S T)
    (st' : ControlledStepper Q W S T) (obs : Observer W S T) (q : Q) (x : S) (dt : T) (w : W) :
    integrateTimesBasic A st obs q x [] dt w = .ub ∧ integrateTimesControlled A st' obs q x [] dt w = .ub :=
  ⟨rfl, rfl⟩

end
end Verif
