import Verif.Spec.Controlled
import Verif.Lemmas.IntegrateFixed

/-! Helper lemmas for the controlled-stepper integrate functions. -/

set_option linter.unusedSectionVars false

namespace Verif
variable {Q S T : Type}

theorem observations_append (l l' : Log S T) :
    Log.observations (l ++ l') = l.observations ++ l'.observations := by
  simp [Log.observations, List.filterMap_append]

theorem acceptCount_append (l l' : Log S T) :
    Log.acceptCount (l ++ l') = l.acceptCount + l'.acceptCount := by
  simp [Log.acceptCount, List.countP_append]

theorem loggedControlled_ok {f : Q → S → T → T → Except Err (TryResult Q S T)} {q : Q} {x : S}
    {t dt : T} {r : TryResult Q S T} (h : f q x t dt = .ok r) (w : Log S T) :
    (loggedControlled f).tryStep q x t dt w = .ok r (w ++ [.tried x t dt r.success]) := by
  simp [loggedControlled, h]

theorem loggedControlled_err {f : Q → S → T → T → Except Err (TryResult Q S T)} {q : Q} {x : S}
    {t dt : T} {e : Err} (h : f q x t dt = .error e) (w : Log S T) :
    (loggedControlled f).tryStep q x t dt w = .err e w := by
  simp [loggedControlled, h]

theorem retryBody_ok {f : Q → S → T → T → Except Err (TryResult Q S T)} {s : AdaptState Q S T}
    {r : TryResult Q S T} (h : f s.q s.x s.t s.dt = .ok r) (hf : s.fails < defaultMaxSteps)
    (w : Log S T) :
    retryBody (loggedControlled f) s w =
      .ok ⟨r.q, r.x, r.t, r.dt, s.fails + 1, r.success⟩ (w ++ [.tried s.x s.t s.dt r.success]) := by
  unfold retryBody
  rw [M.bind_ok (loggedControlled_ok h w)]
  simp [failedStepChecker, Nat.not_le.mpr hf, M.pure_apply]

theorem retryBody_throw {f : Q → S → T → T → Except Err (TryResult Q S T)} {s : AdaptState Q S T}
    {r : TryResult Q S T} (h : f s.q s.x s.t s.dt = .ok r) (hf : defaultMaxSteps ≤ s.fails)
    (w : Log S T) :
    retryBody (loggedControlled f) s w =
      .err .stepAdjustment (w ++ [.tried s.x s.t s.dt r.success]) := by
  unfold retryBody
  rw [M.bind_ok (loggedControlled_ok h w)]
  simp [failedStepChecker, hf, M.throw, M.bind_apply]

theorem trialCalls_succ (Y : ℕ → Q × S × T × T) (R : ℕ → TryResult Q S T) (n : ℕ) :
    trialCalls Y R (n + 1) =
      trialCalls Y R n ++ [.tried (Y n).2.1 (Y n).2.2.1 (Y n).2.2.2 (R n).success] := by
  simp [trialCalls, List.range_succ]

/-- `retryLoop` as a loop that starts with a "failed" flag. -/
theorem retryLoop_eq (st : ControlledStepper Q (Log S T) S T) (s : AdaptState Q S T) (w : Log S T) :
    retryLoop st s w =
      whileM (fun s : AdaptState Q S T => !s.success) (retryBody st) { s with success := false } w := by
  rw [whileM_true (by rfl)]
  rfl

/-- state of the retry loop before trial `k` -/
def trialState (Y : ℕ → Q × S × T × T) (k : ℕ) : AdaptState Q S T :=
  ⟨(Y k).1, (Y k).2.1, (Y k).2.2.1, (Y k).2.2.2, k, false⟩

theorem retryBody_trial {f : Q → S → T → T → Except Err (TryResult Q S T)}
    {Y : ℕ → Q × S × T × T} {R : ℕ → TryResult Q S T} {n : ℕ} (h : IsTrials f Y R n)
    {k : ℕ} (hk : k < n) (hk5 : k < defaultMaxSteps) (hf : (R k).success = false) (w : Log S T) :
    retryBody (loggedControlled f) (trialState Y k) (w ++ trialCalls Y R k) =
      .ok (trialState Y (k + 1)) (w ++ trialCalls Y R (k + 1)) := by
  rw [retryBody_ok (h k hk).1 hk5, trialCalls_succ, List.append_assoc]
  simp [trialState, (h k hk).2, hf]

theorem retryWhile_fails {f : Q → S → T → T → Except Err (TryResult Q S T)}
    {Y : ℕ → Q × S × T × T} {R : ℕ → TryResult Q S T} {n : ℕ} (h : IsTrials f Y R n)
    (hn5 : n ≤ defaultMaxSteps) (hf : ∀ k < n, (R k).success = false) (w : Log S T) :
    ∀ k j, j + k = n →
    whileM (fun s : AdaptState Q S T => !s.success) (retryBody (loggedControlled f))
      (trialState Y j) (w ++ trialCalls Y R j) =
    whileM (fun s : AdaptState Q S T => !s.success) (retryBody (loggedControlled f))
      (trialState Y n) (w ++ trialCalls Y R n) := by
  intro k
  induction k with
  | zero => intro j hj; obtain rfl : j = n := by omega
            rfl
  | succ k ih =>
    intro j hj
    rw [whileM_step_ok (cond := fun s : AdaptState Q S T => !s.success) (by rfl)
      (retryBody_trial h (k := j) (by omega) (by omega) (hf j (by omega)) w)]
    exact ih (j + 1) (by omega)

/-- Postcondition of a retry loop over an arbitrary contract-abiding stepper. -/
theorem retryLoop_sat {f : Q → S → T → T → Except Err (TryResult Q S T)}
    (P : Q → S → T → T → Prop)
    (hP : ∀ q x t dt r, P q x t dt → f q x t dt = .ok r → r.success = false → P r.q r.x r.t r.dt)
    (s : AdaptState Q S T) (hs : P s.q s.x s.t s.dt) (w : Log S T) :
    (retryLoop (loggedControlled f) s w).Sat
      (fun s' w' => w'.observations = w.observations ∧ w'.acceptCount = w.acceptCount + 1 ∧
        ∃ q x t dt r, P q x t dt ∧ f q x t dt = .ok r ∧ r.success = true ∧
          s'.q = r.q ∧ s'.x = r.x ∧ s'.t = r.t ∧ s'.dt = r.dt ∧ s'.success = true)
      (fun _ w' => w'.observations = w.observations) False := by
  rw [retryLoop_eq]
  have key := whileM_sat_total (W := Log S T)
    (cond := fun s : AdaptState Q S T => !s.success) (body := retryBody (loggedControlled f))
    (I := fun s' w' => w'.observations = w.observations ∧
      ((s'.success = false ∧ P s'.q s'.x s'.t s'.dt ∧ w'.acceptCount = w.acceptCount) ∨
       (s'.success = true ∧ w'.acceptCount = w.acceptCount + 1 ∧
          ∃ q x t dt r, P q x t dt ∧ f q x t dt = .ok r ∧ r.success = true ∧
          s'.q = r.q ∧ s'.x = r.x ∧ s'.t = r.t ∧ s'.dt = r.dt ∧ s'.success = true)))
    (E := fun _ w' => w'.observations = w.observations) (D := False)
    (μ := fun s' _ => defaultMaxSteps - s'.fails) ?_
    (s := { s with success := false }) (w := w) ⟨rfl, Or.inl ⟨rfl, hs, rfl⟩⟩
  · refine key.mono ?_ (fun _ _ h => h) id
    rintro s' w' ⟨⟨h1, h2⟩, hc⟩
    rcases h2 with ⟨h2, -⟩ | ⟨h2, h3, h4⟩
    · simp [h2] at hc
    · exact ⟨h1, h3, h4⟩
  · rintro s' w' ⟨hobs, h⟩ hc
    have hfalse : s'.success = false := by simpa using hc
    rcases h with ⟨-, hPs, hacc⟩ | ⟨h2, -⟩
    swap
    · rw [hfalse] at h2; cases h2
    cases hf : f s'.q s'.x s'.t s'.dt with
    | error e =>
      unfold retryBody
      rw [M.bind_err (loggedControlled_err hf w')]
      exact hobs
    | ok r =>
      by_cases hlim : s'.fails < defaultMaxSteps
      · rw [retryBody_ok hf hlim]
        refine ⟨⟨?_, ?_⟩, ?_⟩
        · rw [observations_append, hobs]; simp [Log.observations]
        · cases hsucc : r.success with
          | false =>
            left
            refine ⟨rfl, hP _ _ _ _ _ hPs hf hsucc, ?_⟩
            rw [acceptCount_append, hacc]; simp [Log.acceptCount]
          | true =>
            right
            refine ⟨rfl, ?_, s'.q, s'.x, s'.t, s'.dt, r, hPs, hf, hsucc, rfl, rfl, rfl, rfl, rfl⟩
            rw [acceptCount_append, hacc]; simp [Log.acceptCount]
        · simp only; omega
      · rw [retryBody_throw hf (Nat.not_lt.mp hlim)]
        show Log.observations _ = _
        rw [observations_append, hobs]; simp [Log.observations]

section Exact
variable {K : Type} [Field K] [LinearOrder K] [IsStrictOrderedRing K]

theorem dirSign_of_sameDir {a b : K} (h : SameDir a b) : dirSign a = dirSign b := by
  unfold dirSign
  rcases h with ⟨h1, h2⟩ | ⟨h1, h2⟩
  · rw [if_pos h1, if_pos h2]
  · rw [if_neg (not_lt.mpr h1.le), if_neg (not_lt.mpr h2.le)]

theorem SameDir.ne_zero {a b : K} (h : SameDir a b) : b ≠ 0 := by
  rcases h with ⟨_, h2⟩ | ⟨_, h2⟩
  · exact h2.ne'
  · exact h2.ne

theorem SameDir.symm {a b : K} (h : SameDir a b) : SameDir b a := by
  rcases h with ⟨h1, h2⟩ | ⟨h1, h2⟩
  · exact .inl ⟨h2, h1⟩
  · exact .inr ⟨h2, h1⟩

theorem SameDir.trans {a b c : K} (h : SameDir a b) (h' : SameDir b c) : SameDir a c := by
  rcases h with ⟨h1, h2⟩ | ⟨h1, h2⟩ <;> rcases h' with ⟨h3, h4⟩ | ⟨h3, h4⟩
  · exact .inl ⟨h1, h4⟩
  · exact absurd h2 (not_lt.mpr h3.le)
  · exact absurd h2 (not_lt.mpr h3.le)
  · exact .inr ⟨h1, h4⟩

theorem SameDir.refl {a : K} (h : a ≠ 0) : SameDir a a := by
  rcases lt_or_gt_of_ne h with h | h
  · exact .inr ⟨h, h⟩
  · exact .inl ⟨h, h⟩

theorem sameDir_iff {a b : K} (ha : a ≠ 0) : SameDir a b ↔ 0 < dirSign a * b := by
  unfold dirSign SameDir
  rcases lt_or_gt_of_ne ha with h | h
  · rw [if_neg (not_lt.mpr h.le)]
    constructor
    · rintro (⟨h1, _⟩ | ⟨_, h2⟩)
      · exact absurd h1 (not_lt.mpr h.le)
      · linarith
    · intro h2; exact .inr ⟨h, by linarith⟩
  · rw [if_pos h]
    constructor
    · rintro (⟨_, h2⟩ | ⟨h1, _⟩)
      · linarith
      · exact absurd h (not_lt.mpr h1.le)
    · intro h2; exact .inl ⟨h, by linarith⟩

theorem beyond_congr {eps a b d d' : K} (h : SameDir d d') : Beyond eps d a b ↔ Beyond eps d' a b := by
  rw [beyond_iff, beyond_iff, dirSign_of_sameDir h]

/-- The clipped step size points in the same direction and does not lead beyond the end. -/
theorem clipDt_exact {eps t t1 dt : K} (heps : 0 ≤ eps)
    (hlt : (TimeArith.exact K eps).lessWithSign t t1 dt = true) (hdt : dt ≠ 0) :
    SameDir dt (clipDt (TimeArith.exact K eps) t t1 dt) ∧
      dirSign dt * (t + clipDt (TimeArith.exact K eps) t t1 dt - t1) ≤ eps := by
  rw [exact_less] at hlt
  unfold clipDt
  split
  · rename_i h
    change SameDir dt (t1 - t) ∧ dirSign dt * (t + (t1 - t) - t1) ≤ eps
    refine ⟨(sameDir_iff hdt).mpr (by linarith), ?_⟩
    have : dirSign dt * (t + (t1 - t) - t1) = 0 := by ring
    rw [this]; exact heps
  · rename_i h
    rw [Bool.not_eq_true] at h
    rw [exact_less_false] at h
    change dirSign dt * (t + dt - t1) ≤ eps at h
    exact ⟨SameDir.refl hdt, h⟩

end Exact
end Verif
