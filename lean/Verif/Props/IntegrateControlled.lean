import Verif.Lemmas.Controlled
import Mathlib.Algebra.Order.Field.Rat
import Mathlib.Tactic.Positivity
import Mathlib.Tactic.IntervalCases
import Mathlib.Tactic.FieldSimp

set_option linter.unusedSectionVars false

/-!
# C04, C05: integrate_adaptive with a controlled stepper

The controlled stepper is an arbitrary function `f` (it may throw, keep internal state, accept and reject
as it likes) that keeps the controlled-stepper contract.
-/

namespace Verif
variable {Q S T : Type}

/-! ## C05: the retry loop -/

/-- **C05** (success within the limit).  If trials `0..m-1` are rejected and trial `m` is accepted,
`m < 500`, the retry loop returns the outcome of trial `m` and has made exactly `m+1` trials. -/
theorem retry_returns_first_success (f : Q → S → T → T → Except Err (TryResult Q S T))
    (q : Q) (x : S) (t dt : T) (b : Bool) (Y : ℕ → Q × S × T × T) (R : ℕ → TryResult Q S T)
    (m : ℕ) (hY0 : Y 0 = (q, x, t, dt)) (h : IsTrials f Y R (m + 1))
    (hrej : ∀ k < m, (R k).success = false) (hacc : (R m).success = true) (hm : m < 500)
    (w : Log S T) :
    retryLoop (loggedControlled f) ⟨q, x, t, dt, 0, b⟩ w =
      .ok ⟨(R m).q, (R m).x, (R m).t, (R m).dt, m + 1, true⟩ (w ++ trialCalls Y R (m + 1)) := by
  rw [retryLoop_eq]
  have h0 : ({ q := q, x := x, t := t, dt := dt, fails := 0, success := false } : AdaptState Q S T)
      = trialState Y 0 := by simp [trialState, hY0]
  have hw : w = w ++ trialCalls Y R 0 := by simp [trialCalls]
  have hrun := retryWhile_fails (n := m) (fun k hk => h k (by omega))
    (by unfold defaultMaxSteps; omega) hrej w m 0 (by omega)
  show whileM _ _ ({ q := q, x := x, t := t, dt := dt, fails := 0, success := false } :
    AdaptState Q S T) w = _
  rw [h0]; conv_lhs => rw [hw]
  rw [hrun]
  have hb : retryBody (loggedControlled f) (trialState Y m) (w ++ trialCalls Y R m) =
      .ok ⟨(R m).q, (R m).x, (R m).t, (R m).dt, m + 1, true⟩ (w ++ trialCalls Y R (m + 1)) := by
    rw [retryBody_ok (h m (by omega)).1 (by unfold defaultMaxSteps trialState; simpa using hm),
      trialCalls_succ, List.append_assoc]
    simp [trialState, hacc]
  rw [whileM_step_ok (cond := fun s : AdaptState Q S T => !s.success) (by rfl) hb]
  exact whileM_stop (by rfl)

/-- **C05** (limit exceeded).  If the first 500 trials are rejected, one more trial is made and
`step_adjustment_error` is thrown, whatever its answer. -/
theorem retry_throws_after_limit (f : Q → S → T → T → Except Err (TryResult Q S T))
    (q : Q) (x : S) (t dt : T) (b : Bool) (Y : ℕ → Q × S × T × T) (R : ℕ → TryResult Q S T)
    (hY0 : Y 0 = (q, x, t, dt)) (h : IsTrials f Y R 501)
    (hrej : ∀ k < 500, (R k).success = false) (w : Log S T) :
    retryLoop (loggedControlled f) ⟨q, x, t, dt, 0, b⟩ w =
      .err .stepAdjustment (w ++ trialCalls Y R 501) := by
  rw [retryLoop_eq]
  have h0 : ({ q := q, x := x, t := t, dt := dt, fails := 0, success := false } : AdaptState Q S T)
      = trialState Y 0 := by simp [trialState, hY0]
  have hw : w = w ++ trialCalls Y R 0 := by simp [trialCalls]
  have hrun := retryWhile_fails (n := 500) (fun k hk => h k (by omega)) le_rfl hrej w 500 0
    (by omega)
  show whileM _ _ ({ q := q, x := x, t := t, dt := dt, fails := 0, success := false } :
    AdaptState Q S T) w = _
  rw [h0]; conv_lhs => rw [hw]
  rw [hrun]
  refine whileM_step_err (cond := fun s : AdaptState Q S T => !s.success) (by rfl) ?_
  rw [retryBody_throw (h 500 (by omega)).1 le_rfl, trialCalls_succ Y R 500, List.append_assoc]
  simp [trialState]

/-- **C05** (no endless retrying).  Whatever the stepper does, one step of `integrate_adaptive` returns
or throws: it never diverges, and the observer is not called meanwhile. -/
theorem retry_never_diverges (f : Q → S → T → T → Except Err (TryResult Q S T))
    (s : AdaptState Q S T) (w : Log S T) :
    (∃ s' w', retryLoop (loggedControlled f) s w = .ok s' w' ∧ s'.success = true ∧
        w'.observations = w.observations) ∨
    (∃ e w', retryLoop (loggedControlled f) s w = .err e w' ∧
        w'.observations = w.observations) := by
  have h := retryLoop_sat (f := f) (P := fun _ _ _ _ => True) (fun _ _ _ _ _ _ _ _ => trivial)
    s trivial w
  cases hr : retryLoop (loggedControlled f) s w with
  | ok s' w' =>
    rw [hr] at h
    obtain ⟨h1, -, _, _, _, _, _, -, -, -, -, -, -, -, h2⟩ := h
    exact .inl ⟨s', w', rfl, h2, h1⟩
  | err e w' => rw [hr] at h; exact .inr ⟨e, w', rfl, h⟩
  | ub => rw [hr] at h; exact absurd h id
  | div => rw [hr] at h; exact absurd h id

/-- A stepper that halves a too large step: accepts iff `dt <= 1/8`. -/
def demoTry : ℕ → ℚ → ℚ → ℚ → Except Err (TryResult ℕ ℚ ℚ) := fun q x t dt =>
  if |dt| ≤ 1/8 then .ok ⟨q + 1, x + dt, t + dt, 2 * dt, true⟩
  else .ok ⟨q, x, t, dt / 2, false⟩

/-- Non-vacuity of the first C05 theorem: `dt = 1/2` is rejected twice, then accepted. -/
example : ∃ (Y : ℕ → ℕ × ℚ × ℚ × ℚ) (R : ℕ → TryResult ℕ ℚ ℚ), Y 0 = (0, 0, 0, 1/2) ∧
    IsTrials demoTry Y R 3 ∧ (∀ k < 2, (R k).success = false) ∧ (R 2).success = true := by
  refine ⟨fun k => if k ≤ 2 then (0, 0, 0, 1 / 2 ^ (k + 1)) else (1, 1/8, 1/8, 1/4),
    fun k => if k < 2 then ⟨0, 0, 0, 1 / 2 ^ (k + 2), false⟩ else ⟨1, 1/8, 1/8, 1/4, true⟩,
    by norm_num, ?_, ?_, by norm_num⟩
  · intro k hk
    interval_cases k <;> norm_num [demoTry, abs_of_pos]
  · intro k hk
    simp [hk]

/-- A stepper that rejects everything. -/
def demoReject : ℕ → ℚ → ℚ → ℚ → Except Err (TryResult ℕ ℚ ℚ) := fun q x t dt =>
  .ok ⟨q + 1, x, t, dt / 2, false⟩

/-- Non-vacuity of the second C05 theorem. -/
example : ∃ (Y : ℕ → ℕ × ℚ × ℚ × ℚ) (R : ℕ → TryResult ℕ ℚ ℚ), Y 0 = (0, 1, 0, 1) ∧
    IsTrials demoReject Y R 501 ∧ (∀ k < 500, (R k).success = false) := by
  refine ⟨fun k => (k, 1, 0, 1 / 2 ^ k), fun k => ⟨k + 1, 1, 0, 1 / 2 ^ (k + 1), false⟩,
    by norm_num, ?_, fun _ _ => rfl⟩
  intro k _
  refine ⟨?_, rfl⟩
  simp only [demoReject, Except.ok.injEq, TryResult.mk.injEq, true_and, and_true]
  rw [pow_succ]; field_simp

/-! ## C04 -/

section Exact
variable {K : Type} [Field K] [LinearOrder K] [IsStrictOrderedRing K]

/-- What the caller has seen (observer calls) when the run is at `(xl,tl)` after `n` accepted steps. -/
def GoodObservations (f : Q → S → K → K → Except Err (TryResult Q S K)) (eps dt t1 : K)
    (x0 : S) (t0 : K) (xl : S) (tl : K) (n : ℕ) (obs : List (S × K)) : Prop :=
  obs.length = n + 1 ∧ obs.head? = some (x0, t0) ∧ obs.getLast? = some (xl, tl) ∧
    obs.IsChain (AcceptedStep f eps dt t1)

theorem GoodObservations.snoc {f : Q → S → K → K → Except Err (TryResult Q S K)} {eps dt t1 : K}
    {x0 : S} {t0 : K} {xl : S} {tl : K} {n : ℕ} {obs : List (S × K)} {x' : S} {t' : K}
    (h : GoodObservations f eps dt t1 x0 t0 xl tl n obs)
    (hs : AcceptedStep f eps dt t1 (xl, tl) (x', t')) :
    GoodObservations f eps dt t1 x0 t0 x' t' (n + 1) (obs ++ [(x', t')]) := by
  obtain ⟨h1, h2, h3, h4⟩ := h
  refine ⟨by simp [h1], ?_, by simp, ?_⟩
  · cases obs with
    | nil => simp at h1
    | cons a l => simpa using h2
  · refine List.IsChain.append h4 (List.isChain_singleton _) ?_
    intro a ha b hb
    rw [h3] at ha
    simp at ha hb
    subst ha; subst hb
    exact hs

/-- Everything the loop of `integrate_adaptive` guarantees, including the situation at an exception. -/
theorem adaptiveControlled_sat (eps : K) (heps : 0 ≤ eps)
    (f : Q → S → K → K → Except Err (TryResult Q S K)) (hf : ExactContract eps f)
    (q : Q) (x : S) (t0 t1 dt : K) (hdt : dt ≠ 0) (w : Log S K) :
    (integrateAdaptiveControlled (TimeArith.exact K eps) (loggedControlled f) record
      q x t0 t1 dt w).Sat
      (fun r w' => (∃ obs, w'.observations = w.observations ++ obs ∧
          GoodObservations f eps dt t1 x t0 r.x r.t r.count obs) ∧
        w'.acceptCount = w.acceptCount + r.count ∧ SameDir dt r.dt ∧
        (¬ Beyond eps dt t1 r.t) ∧ (¬ Beyond eps dt t0 t1 → ¬ Beyond eps dt r.t t1))
      (fun _ w' => ∃ obs xl tl n, w'.observations = w.observations ++ obs ∧
          GoodObservations f eps dt t1 x t0 xl tl n obs) True := by
  unfold integrateAdaptiveControlled
  apply Res.Sat.bind
  -- invariant: appending the current state gives good observations
  refine (whileM_sat
    (I := fun (p : AdaptState Q S K × ℕ) w' => (∃ obs, w'.observations = w.observations ++ obs ∧
        GoodObservations f eps dt t1 x t0 p.1.x p.1.t p.2 (obs ++ [(p.1.x, p.1.t)])) ∧
        w'.acceptCount = w.acceptCount + p.2 ∧ SameDir dt p.1.dt ∧
        (¬ Beyond eps dt t0 t1 → ¬ Beyond eps dt p.1.t t1))
    (E := fun _ w' => ∃ obs xl tl n, w'.observations = w.observations ++ obs ∧
          GoodObservations f eps dt t1 x t0 xl tl n obs) ?_ ?_).mono ?_ (fun _ _ h => h) id
  · rintro ⟨s, n⟩ w' ⟨⟨obs, hobs, hgood⟩, hacc, hdir, hnb⟩ hc
    simp only at hobs hgood hacc hdir hnb hc ⊢
    rw [record_bind]
    apply Res.Sat.bind
    have hclip := clipDt_exact heps hc (hdir.ne_zero)
    have hσ := dirSign_of_sameDir hdir
    refine (retryLoop_sat (f := f)
      (P := fun _ y τ d => y = s.x ∧ τ = s.t ∧ SameDir dt d ∧ dirSign dt * (s.t + d - t1) ≤ eps)
      ?_ { s with dt := clipDt (TimeArith.exact K eps) s.t t1 s.dt }
      ⟨rfl, rfl, hdir.trans hclip.1, by rw [hσ]; exact hclip.2⟩ _).mono ?_ ?_ False.elim
    · rintro q1 y τ d r ⟨rfl, rfl, hd, hle⟩ hr hrej
      obtain ⟨h1, h2⟩ := hf.fail_same _ _ _ _ _ hr hrej
      have h3 := hf.dir _ _ _ _ _ hr hd.ne_zero
      have h4 := hf.fail_shrinks _ _ _ _ _ hr hrej
      refine ⟨h1, h2, hd.trans h3, ?_⟩
      have e1 : dirSign dt * r.dt = |r.dt| := by
        rw [dirSign_of_sameDir (hd.trans h3), dirSign_mul_self]
      have e2 : dirSign dt * d = |d| := by
        rw [dirSign_of_sameDir hd, dirSign_mul_self]
      have : dirSign dt * (s.t + r.dt - t1) =
          dirSign dt * (s.t + d - t1) + (|r.dt| - |d|) := by rw [← e1, ← e2]; ring
      rw [this]; linarith
    · rintro s' w'' ⟨hobs', hacc', q1, y, τ, d, r, ⟨rfl, rfl, hd, hle⟩, hr, hsucc, -, hx, ht, hdt', -⟩
      have ht2 := hf.success_time _ _ _ _ _ hr hsucc
      change r.t = s.t + d at ht2
      have hnb' : ¬ Beyond eps dt (s.t + d) t1 := by
        rw [not_beyond_iff]; exact hle
      refine ⟨⟨obs ++ [(s.x, s.t)], ?_, ?_⟩, ?_, ?_, ?_⟩
      · rw [hobs', observations_append, hobs]; simp [Log.observations]
      · refine hgood.snoc ?_
        exact ⟨q1, d, r, hr, hsucc, hx.symm, ht.symm, by simp only [ht, ht2], hd,
          by simp only [ht, ht2]; exact hnb'⟩
      · rw [hacc', acceptCount_append, hacc]; simp [Log.acceptCount]; omega
      · simp only [hdt']; exact hd.trans (hf.dir _ _ _ _ _ hr hd.ne_zero)
      · intro _; simp only [ht, ht2]; exact hnb'
    · rintro e w'' hobs'
      refine ⟨obs ++ [(s.x, s.t)], s.x, s.t, n, ?_, hgood⟩
      rw [hobs', observations_append, hobs]; simp [Log.observations]
  · refine ⟨⟨[], by simp, rfl, rfl, rfl, List.isChain_singleton _⟩, rfl, SameDir.refl hdt, id⟩
  · rintro ⟨s, n⟩ w' ⟨⟨⟨obs, hobs, hgood⟩, hacc, hdir, hnb⟩, hc⟩
    simp only at hobs hgood hacc hdir hnb hc ⊢
    rw [record_bind]
    refine ⟨⟨obs ++ [(s.x, s.t)], ?_, hgood⟩, ?_, hdir, ?_, hnb⟩
    · rw [observations_append, hobs]; simp [Log.observations]
    · rw [acceptCount_append, hacc]; simp [Log.acceptCount]
    · rw [exact_less_false, ← dirSign_of_sameDir hdir] at hc
      rw [not_beyond_iff]; exact hc

/-- **C04**.  Whenever `integrate_adaptive` with a controlled stepper returns:
the observer calls `obs` start with the initial state and time and end with the final state and time,
there is one more of them than accepted steps (the returned count), each one is reached from the previous
one by an accepted trial with step size `t' - t` in the direction of integration that does not lead
beyond `t1 (+eps)`, the final time is within `eps` of `t1` (if `t0` was not already beyond `t1`), and the
step size keeps its direction. -/
theorem integrate_adaptive_controlled_spec (eps : K) (heps : 0 ≤ eps)
    (f : Q → S → K → K → Except Err (TryResult Q S K)) (hf : ExactContract eps f)
    (q : Q) (x : S) (t0 t1 dt : K) (hdt : dt ≠ 0) (w w' : Log S K) (r : AdaptResult S K)
    (hrun : integrateAdaptiveControlled (TimeArith.exact K eps) (loggedControlled f) record
      q x t0 t1 dt w = .ok r w') :
    ∃ obs : List (S × K), w'.observations = w.observations ++ obs ∧
      obs.length = r.count + 1 ∧ w'.acceptCount = w.acceptCount + r.count ∧
      obs.head? = some (x, t0) ∧ obs.getLast? = some (r.x, r.t) ∧
      obs.IsChain (AcceptedStep f eps dt t1) ∧
      obs.IsChain (fun a b => if 0 < dt then a.2 < b.2 else b.2 < a.2) ∧
      SameDir dt r.dt ∧ ¬ Beyond eps dt t1 r.t ∧
      (¬ Beyond eps dt t0 t1 → |r.t - t1| ≤ eps) := by
  have h := (adaptiveControlled_sat eps heps f hf q x t0 t1 dt hdt w).of_ok hrun
  obtain ⟨⟨obs, h1, h2, h3, h4, h5⟩, h6, h7, h8, h9⟩ := h
  refine ⟨obs, h1, h2, h6, h3, h4, h5, ?_, h7, h8, ?_⟩
  · refine h5.imp ?_
    rintro a b ⟨_, d, _, _, _, _, _, he, hd, _⟩
    rw [he]
    rcases hd with ⟨p1, p2⟩ | ⟨p1, p2⟩
    · rw [if_pos p1]; linarith
    · rw [if_neg (not_lt.mpr p1.le)]; linarith
  · intro hfw
    have a1 := (not_beyond_iff _ _ _ _).mp h8
    have a2 := (not_beyond_iff _ _ _ _).mp (h9 hfw)
    rw [← abs_dirSign_mul dt, abs_le]
    constructor <;> linarith

/-- **C04** (exception).  If an exception escapes (thrown by the stepper or because no step size was
found), the observer has seen a correct initial part of the run. -/
theorem integrate_adaptive_controlled_exception (eps : K) (heps : 0 ≤ eps)
    (f : Q → S → K → K → Except Err (TryResult Q S K)) (hf : ExactContract eps f)
    (q : Q) (x : S) (t0 t1 dt : K) (hdt : dt ≠ 0) (w w' : Log S K) (e : Err)
    (hrun : integrateAdaptiveControlled (TimeArith.exact K eps) (loggedControlled f) record
      q x t0 t1 dt w = .err e w') :
    ∃ obs : List (S × K), w'.observations = w.observations ++ obs ∧
      obs.head? = some (x, t0) ∧ obs.IsChain (AcceptedStep f eps dt t1) := by
  have h := (adaptiveControlled_sat eps heps f hf q x t0 t1 dt hdt w).of_err hrun
  obtain ⟨obs, _, _, _, h1, -, h3, -, h5⟩ := h
  exact ⟨obs, h1, h3, h5⟩

/-- **C04** (termination).  Let `g > 0`.  If a rejection never proposes less than `g` in magnitude, and an
accepted trial never proposes less than `g` unless it was shorter than `g` itself, then `integrate_adaptive` returns or throws: it does not run forever. -/
theorem integrate_adaptive_controlled_terminates [Archimedean K] (eps : K) (heps : 0 ≤ eps)
    (f : Q → S → K → K → Except Err (TryResult Q S K)) (hf : ExactContract eps f)
    (g : K) (hg : 0 < g)
    (hrej : ∀ q x t d r, f q x t d = .ok r → r.success = false → g ≤ |r.dt|)
    (hacc : ∀ q x t d r, f q x t d = .ok r → r.success = true → g ≤ |d| → g ≤ |r.dt|)
    (q : Q) (x : S) (t0 t1 dt : K) (hdt : g ≤ |dt|) (w : Log S K) :
    integrateAdaptiveControlled (TimeArith.exact K eps) (loggedControlled f) record
      q x t0 t1 dt w ≠ .div := by
  have hdt0 : dt ≠ 0 := by
    intro h; rw [h, abs_zero] at hdt; exact absurd hdt (not_le.mpr hg)
  obtain ⟨N, hN⟩ := Archimedean.arch (dirSign dt * (t1 - t0)) hg
  rw [nsmul_eq_mul] at hN
  have key : (integrateAdaptiveControlled (TimeArith.exact K eps) (loggedControlled f) record
      q x t0 t1 dt w).Sat (fun _ _ => True) (fun _ _ => True) False := by
    unfold integrateAdaptiveControlled
    apply Res.Sat.bind
    refine (whileM_sat_total
      (I := fun (p : AdaptState Q S K × ℕ) _ => SameDir dt p.1.dt ∧
        (dirSign dt * (t1 - p.1.t) ≤ 0 ∨
          (g ≤ |p.1.dt| ∧ (p.2 : K) * g ≤ dirSign dt * (p.1.t - t0))))
      (E := fun _ _ => True) (D := False) (μ := fun p _ => N - p.2) ?_ ?_).mono ?_
        (fun _ _ _ => trivial) id
    · rintro ⟨s, n⟩ w' ⟨hdir, hI⟩ hc
      simp only at hdir hI hc ⊢
      have hlt := hc
      rw [exact_less, ← dirSign_of_sameDir hdir] at hlt
      rcases hI with hI | ⟨hgs, hn⟩
      · linarith
      have hclip := clipDt_exact heps hc hdir.ne_zero
      have hlen : g ≤ |clipDt (TimeArith.exact K eps) s.t t1 s.dt| ∨
          s.t + clipDt (TimeArith.exact K eps) s.t t1 s.dt = t1 := by
        unfold clipDt
        split
        · right; show s.t + (t1 - s.t) = t1; ring
        · left; exact hgs
      rw [record_bind]
      apply Res.Sat.bind
      refine (retryLoop_sat (f := f)
        (P := fun _ _ τ d => τ = s.t ∧ SameDir dt d ∧ (g ≤ |d| ∨ s.t + d = t1))
        ?_ { s with dt := clipDt (TimeArith.exact K eps) s.t t1 s.dt }
        ⟨rfl, hdir.trans hclip.1, hlen⟩ _).mono ?_ (fun _ _ _ => trivial) id
      · rintro q1 y τ d r ⟨rfl, hd, hl⟩ hr hrj
        exact ⟨(hf.fail_same _ _ _ _ _ hr hrj).2, hd.trans (hf.dir _ _ _ _ _ hr hd.ne_zero),
          .inl (hrej _ _ _ _ _ hr hrj)⟩
      · rintro s' w'' ⟨-, -, q1, y, τ, d, r, ⟨rfl, hd, hl⟩, hr, hsucc, -, -, ht, hdt', -⟩
        have ht2 := hf.success_time _ _ _ _ _ hr hsucc
        change r.t = s.t + d at ht2
        have hdir' : SameDir dt s'.dt := by
          rw [hdt']; exact hd.trans (hf.dir _ _ _ _ _ hr hd.ne_zero)
        have hnN : n < N := by
          by_contra hge
          have : (N : K) ≤ n := by exact_mod_cast Nat.not_lt.mp hge
          have h2 : (N : K) * g ≤ n * g := mul_le_mul_of_nonneg_right this hg.le
          have h3 : dirSign dt * (s.t - t0) = dirSign dt * (t1 - t0) - dirSign dt * (t1 - s.t) := by
            ring
          linarith
        refine ⟨⟨hdir', ?_⟩, by simp only; omega⟩
        rcases hl with hl | hl
        · right
          refine ⟨by rw [hdt']; exact hacc _ _ _ _ _ hr hsucc hl, ?_⟩
          have e2 : dirSign dt * d = |d| := by
            rw [dirSign_of_sameDir hd, dirSign_mul_self]
          have : dirSign dt * (s'.t - t0) = dirSign dt * (s.t - t0) + |d| := by
            rw [ht, ht2, ← e2]; ring
          rw [this]; push_cast; linarith
        · left
          have h0 : s'.t = t1 := by rw [ht, ht2, hl]
          simp [h0]
    · exact ⟨SameDir.refl hdt0, .inr ⟨hdt, by simp⟩⟩
    · rintro ⟨s, n⟩ w' -
      trivial
  intro hdiv
  rw [hdiv] at key
  exact key

/-- Non-vacuity of C04: `demoTry` keeps the contract. -/
theorem demoTry_contract : ExactContract (0 : ℚ) demoTry where
  success_time := by
    intro q x t dt r h hs
    unfold demoTry at h
    split at h <;> cases h
    · rfl
    · cases hs
  fail_same := by
    intro q x t dt r h hs
    unfold demoTry at h
    split at h <;> cases h
    · cases hs
    · exact ⟨rfl, rfl⟩
  dir := by
    intro q x t dt r h hdt
    unfold demoTry at h
    split at h <;> cases h <;> rcases lt_or_gt_of_ne hdt with h | h
    · exact .inr ⟨h, by simp only; linarith⟩
    · exact .inl ⟨h, by simp only; linarith⟩
    · exact .inr ⟨h, by simp only; linarith⟩
    · exact .inl ⟨h, by simp only; linarith⟩
  fail_shrinks := by
    intro q x t dt r h hs
    unfold demoTry at h
    split at h <;> cases h
    · cases hs
    · simp only [abs_div]
      have := abs_nonneg dt
      norm_num

/-- Non-vacuity of the termination theorem: `demoTry` satisfies its hypotheses with `g = 1/16`. -/
example : (∀ q x t d r, demoTry q x t d = .ok r → r.success = false → (1/16 : ℚ) ≤ |r.dt|) ∧
    (∀ q x t d r, demoTry q x t d = .ok r → r.success = true → (1/16 : ℚ) ≤ |d| →
      (1/16 : ℚ) ≤ |r.dt|) := by
  refine ⟨?_, ?_⟩
  · intro q x t d r h hs
    unfold demoTry at h
    split at h <;> cases h
    · cases hs
    · rename_i hd
      simp only [abs_div]
      norm_num
      norm_num at hd
      linarith
  · intro q x t d r h hs hd
    unfold demoTry at h
    split at h <;> cases h
    · simp only [abs_mul]; norm_num; norm_num at hd; linarith
    · cases hs

end Exact
end Verif
