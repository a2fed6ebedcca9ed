import Verif.Props.DenseFsal
import Verif.Spec.DenseSteps
import Verif.Lemmas.FsalHistory
import Mathlib.Tactic.NormNum
import Mathlib.Tactic.Linarith

/-!
# C34: what the steps of the dense output stepper mean

Consequences of the refinement in `Props/DenseFsal.lean`, for every system function that computes some `f`.
-/

set_option linter.unusedSectionVars false

namespace Verif
variable {K V W α : Type}
variable [Add K] [Sub K] [Mul K] [Div K] [IntCast K] [StateOps K V]

theorem sysBind {f : V → K → V} {sys : Sys K V W} (hf : SysFor f sys) {x : V} {t : K} {w w' : W}
    {q : V → M W α} {a : α} (h : (sys x t >>= q) w = .ok a w') : ∃ w₁, q (f x t) w₁ = .ok a w' := by
  rw [M.bind_apply] at h
  cases hs : sys x t w with
  | ok v w₁ => rw [hs] at h; rw [hf _ _ _ _ _ hs] at h; exact ⟨w₁, h⟩
  | err => rw [hs] at h; cases h
  | ub => rw [hs] at h; cases h
  | div => rw [hs] at h; cases h

theorem dopri5Step_fun {f : V → K → V} {sys : Sys K V W} (hf : SysFor f sys) {x k : V} {t dt : K} {w w' : W}
    {r : Dopri5Result V} (h : dopri5Step sys x k t dt w = .ok r w') : r = dopri5Fun f x k t dt := by
  unfold dopri5Step at h
  obtain ⟨w, h⟩ := sysBind hf h
  obtain ⟨w, h⟩ := sysBind hf h
  obtain ⟨w, h⟩ := sysBind hf h
  obtain ⟨w, h⟩ := sysBind hf h
  obtain ⟨w, h⟩ := sysBind hf h
  obtain ⟨w, h⟩ := sysBind hf h
  rw [M.pure_apply] at h
  injection h with h1 h2
  exact h1.symm

theorem dopri5Trial_accepted {f : V → K → V} {sys : Sys K V W} (hf : SysFor f sys) {P : CtrlParams K V} {x k : V}
    {t dt : K} {w w' : W} {r : Dopri5Result V} {e d : K}
    (h : dopri5Trial P sys x k t dt w = .ok (.accepted r e d) w') :
    r = dopri5Fun f x k t dt ∧ AcceptedDopri5 P x k dt r := by
  unfold dopri5Trial at h
  split at h
  · cases h
  rename_i hlim
  rw [M.bind_apply] at h
  cases hs : dopri5Step sys x k t dt w with
  | err => rw [hs] at h; cases h
  | ub => rw [hs] at h; cases h
  | div => rw [hs] at h; cases h
  | ok r' w₁ =>
    rw [hs] at h
    simp only at h
    split at h
    · cases h
    · rename_i hg
      rw [M.pure_apply] at h
      injection h with h1 h2
      injection h1 with h3 h4 h5
      subst h3
      exact ⟨dopri5Step_fun hf hs, by simpa using hlim, by simpa using hg⟩

/-- the trials of one step -/
theorem trials_outcome {f : V → K → V} {sys : Sys K V W} (hf : SysFor f sys) (P : CtrlParams K V) (x k : V) (t : K)
    (n : ℕ) (dt : K) (w : W) :
    (∀ r t' dt' w', dopri5Trials P sys x k t n dt w = .ok (.done r t' dt') w' →
      ∃ d, t' = t + d ∧ r = dopri5Fun f x k t d ∧ AcceptedDopri5 P x k d r) ∧
    (∀ e t' dt' w', dopri5Trials P sys x k t n dt w = .ok (.threw e t' dt') w' →
      t' = t ∨ e = .stepAdjustment ∧ ∃ d, t' = t + d ∧ AcceptedDopri5 P x k d (dopri5Fun f x k t d)) := by
  induction n generalizing dt w with
  | zero =>
    unfold dopri5Trials
    rcases hT : dopri5Trial P sys x k t dt w with ⟨d | ⟨r, e, d⟩ | ⟨r, e, d⟩, w'⟩ | ⟨e, w'⟩ | _ | _ <;>
      refine ⟨by simp, ?_⟩ <;> intro e' t' dt' w'' h <;> simp only [Res.ok.injEq, Trials.threw.injEq, reduceCtorEq] at h
    · exact .inl h.1.2.1.symm
    · exact .inl h.1.2.1.symm
    · obtain ⟨h1, h2⟩ := dopri5Trial_accepted hf hT
      subst h1
      exact .inr ⟨h.1.1.symm, dt, h.1.2.1.symm, h2⟩
    · exact .inl h.1.2.1.symm
  | succ n ih =>
    unfold dopri5Trials
    rcases hT : dopri5Trial P sys x k t dt w with ⟨d | ⟨r, e, d⟩ | ⟨r, e, d⟩, w'⟩ | ⟨e, w'⟩ | _ | _
    · exact ih d w'
    · exact ih d w'
    · obtain ⟨h1, h2⟩ := dopri5Trial_accepted hf hT
      refine ⟨?_, by simp⟩
      intro r' t' dt' w'' h
      simp only [Res.ok.injEq, Trials.done.injEq] at h
      obtain ⟨⟨rfl, rfl, rfl⟩, rfl⟩ := h
      exact ⟨dt, rfl, h1, h2⟩
    · refine ⟨by simp, ?_⟩
      intro e' t' dt' w'' h
      simp only [Res.ok.injEq, Trials.threw.injEq] at h
      exact .inl h.1.2.1.symm
    · simp
    · simp

theorem deriv_fun {f : V → K → V} {sys : Sys K V W} (hf : SysFor f sys) {a : DopriDense K V W} (hv : a.DerivValid f)
    {w w' : W} {k : V} (h : a.deriv sys w = .ok k w') : k = f a.x a.t := by
  unfold DopriDense.deriv at h
  cases hk : a.k with
  | some k' =>
    rw [hk] at h
    change Res.ok k' w = _ at h
    injection h with h1 h2
    rw [← h1]; exact hv _ hk
  | none => rw [hk] at h; exact hf _ _ _ _ _ h

/-- **C34** (success): `do_step` returns the old and the new time, the previous state and time are the former current
state and time, the new state is an accepted Dormand-Prince step from there with the step size by which the time has
advanced, and the stored derivative is the right-hand side at the new state and time. -/
theorem dopri_dense_step_ok {f : V → K → V} {sys : Sys K V W} (hf : SysFor f sys) (P : CtrlParams K V)
    (a a' : DopriDense K V W) (hv : a.DerivValid f) (t0 t1 : K) (h : a.step P sys = .ok (t0, t1) a') :
    t0 = a.t ∧ t1 = a'.t ∧ (∃ s, a'.last = some s ∧ s.xOld = a.x ∧ s.tOld = a.t) ∧ a'.LastValid P f ∧
      a'.DerivValid f ∧ a'.user = a.user := by
  unfold DopriDense.step at h
  cases hd : a.deriv sys a.world with
  | err => rw [hd] at h; cases h
  | ub => rw [hd] at h; cases h
  | div => rw [hd] at h; cases h
  | ok k w =>
    have hk := deriv_fun hf hv hd
    rw [hd] at h
    simp only at h
    rcases hT : dopri5Trials P sys a.x k a.t defaultMaxSteps a.dt w with ⟨⟨r, t', dt'⟩ | ⟨e, t', dt'⟩, w'⟩ | ⟨e, w'⟩ | _ | _ <;>
      rw [hT] at h <;> simp only [Res.ok.injEq, reduceCtorEq, Prod.mk.injEq] at h
    obtain ⟨⟨rfl, rfl⟩, rfl⟩ := h
    obtain ⟨d, h1, h2, h3⟩ := (trials_outcome hf P a.x k a.t _ a.dt w).1 _ _ _ _ hT
    subst hk
    refine ⟨rfl, rfl, ⟨_, rfl, rfl, rfl⟩, ?_, ?_, rfl⟩
    · rintro s ⟨⟩
      refine ⟨d, h1, rfl, by rw [← h2]; exact h3, h2⟩
    · rintro k' ⟨⟩
      subst h2
      show _ = f (dopri5Fun f a.x (f a.x a.t) a.t d).x t'
      rw [h1]; rfl

/-- **C34** (exception): if `do_step` throws, the current state is the same as before.  The time is the same too, unless
the exception is that of the step size adjustment and the very last trial was acceptable. -/
theorem dopri_dense_step_err {f : V → K → V} {sys : Sys K V W} (hf : SysFor f sys) (P : CtrlParams K V)
    (a a' : DopriDense K V W) (hv : a.DerivValid f) (e : Err) (h : a.step P sys = .err e a') :
    a'.x = a.x ∧ a'.user = a.user ∧ (a'.k = a.k ∨ a'.k = some (f a.x a.t)) ∧
      (a'.t = a.t ∨ e = .stepAdjustment ∧ ∃ d, a'.t = a.t + d ∧
        AcceptedDopri5 P a.x (f a.x a.t) d (dopri5Fun f a.x (f a.x a.t) a.t d)) := by
  unfold DopriDense.step at h
  cases hd : a.deriv sys a.world with
  | err => rw [hd] at h; simp only [Res.err.injEq] at h; obtain ⟨rfl, rfl⟩ := h; exact ⟨rfl, rfl, .inl rfl, .inl rfl⟩
  | ub => rw [hd] at h; cases h
  | div => rw [hd] at h; cases h
  | ok k w =>
    have hk := deriv_fun hf hv hd
    rw [hd] at h
    simp only at h
    rcases hT : dopri5Trials P sys a.x k a.t defaultMaxSteps a.dt w with ⟨⟨r, t', dt'⟩ | ⟨e, t', dt'⟩, w'⟩ | ⟨e, w'⟩ | _ | _ <;>
      rw [hT] at h <;> simp only [Res.err.injEq, reduceCtorEq] at h
    · obtain ⟨rfl, rfl⟩ := h
      subst hk
      exact ⟨rfl, rfl, .inr rfl, (trials_outcome hf P a.x _ a.t _ a.dt w).2 _ _ _ _ hT⟩
    · obtain ⟨rfl, rfl⟩ := h
      exact ⟨rfl, rfl, .inl rfl, .inl rfl⟩

/-- After any sequence of calls that returns, the stored derivative belongs to the current state and the last step is
an accepted step from the previous to the current state. -/
theorem dopri_dense_valid {f : V → K → V} {sys : Sys K V W} (hf : SysFor f sys) (P : CtrlParams K V)
    (cs : List (DenseCall K)) (a a' : DopriDense K V W) (rs : List (Option (K × K)))
    (hv : a.DerivValid f) (hl : a.LastValid P f)
    (h : runSeq (fun c a => a.call P sys c) cs a = .ok rs a') : a'.DerivValid f ∧ a'.LastValid P f := by
  induction cs generalizing a rs with
  | nil =>
    simp only [runSeq, M.pure_apply, Res.ok.injEq] at h
    obtain ⟨-, rfl⟩ := h
    exact ⟨hv, hl⟩
  | cons c cs ih =>
    simp only [runSeq] at h
    rw [M.bind_apply] at h
    cases hc : a.call P sys c with
    | err => rw [hc] at h; cases h
    | ub => rw [hc] at h; cases h
    | div => rw [hc] at h; cases h
    | ok r a₁ =>
      rw [hc] at h
      simp only at h
      rw [M.bind_apply] at h
      cases hr : runSeq (fun c a => DopriDense.call P sys a c) cs a₁ with
      | err => rw [hr] at h; cases h
      | ub => rw [hr] at h; cases h
      | div => rw [hr] at h; cases h
      | ok rs' a₂ =>
        rw [hr] at h
        simp only [M.pure_apply, Res.ok.injEq] at h
        obtain ⟨-, rfl⟩ := h
        have : a₁.DerivValid f ∧ a₁.LastValid P f := by
          cases c with
          | init x0 t0 dt0 =>
            simp only [DopriDense.call, Res.ok.injEq] at hc
            obtain ⟨-, rfl⟩ := hc
            exact ⟨fun k hk => (by cases hk), fun s hs => (by cases hs)⟩
          | step =>
            simp only [DopriDense.call] at hc
            cases hs : a.step P sys with
            | err => rw [hs] at hc; cases hc
            | ub => rw [hs] at hc; cases hc
            | div => rw [hs] at hc; cases hc
            | ok r a₁ =>
              rw [hs] at hc
              simp only [Res.ok.injEq] at hc
              obtain ⟨-, rfl⟩ := hc
              have := dopri_dense_step_ok hf P a a₁ hv r.1 r.2 hs
              exact ⟨this.2.2.2.2.1, this.2.2.2.1⟩
          | calcAt t x =>
            simp only [DopriDense.call] at hc
            cases hs : a.last with
            | none => rw [hs] at hc; cases hc
            | some s =>
              rw [hs] at hc
              simp only [Res.ok.injEq] at hc
              obtain ⟨-, rfl⟩ := hc
              refine ⟨hv, ?_⟩
              intro s' hs'
              exact hl s' (by rw [hs]; exact hs')
        exact ih a₁ rs' this.1 this.2 hr

/-! ## A step that is accepted too late -/

/-- a controller that rejects every step longer than 1 and shortens by 1 -/
def lateCtrl : CtrlParams ℚ ℚ where
  gtOne e := decide (1 < e)
  checker := ⟨fun _ _ e dt => (e, dt)⟩
  adjuster := ⟨fun dt _ _ => dt - 1, fun dt _ _ => dt, fun _ => true, 0⟩
  stepperOrder := 5
  errorOrder := 4

/-- the right-hand side 1 -/
def oneRhs : ℚ → ℚ → ℚ := fun _ _ => 1

theorem dopri5Trial_of_step {P : CtrlParams K V} {sys : Sys K V W} {x k : V} {t dt : K} {w w' : W} {r : Dopri5Result V}
    (hl : P.adjuster.checkStepSizeLimit dt = true) (hs : dopri5Step sys x k t dt w = .ok r w') :
    dopri5Trial P sys x k t dt w =
      if P.gtOne (P.checker.error x k (dopri5Error k dt r) dt).2 = true then
        .ok (.rejected r (P.checker.error x k (dopri5Error k dt r) dt).2
          (P.adjuster.decreaseStep dt (P.checker.error x k (dopri5Error k dt r) dt).2 P.errorOrder)) w'
      else .ok (.accepted r (P.checker.error x k (dopri5Error k dt r) dt).2
          (P.adjuster.increaseStep dt (P.checker.error x k (dopri5Error k dt r) dt).2 P.stepperOrder)) w' := by
  unfold dopri5Trial
  rw [if_neg (by simp [hl]), M.bind_ok hs]
  split <;> rfl

theorem late_trials (x k t : ℚ) (n : ℕ) (w : ℕ) : ∃ w',
    dopri5Trials lateCtrl (countSys oneRhs) x k t n (n + 1 : ℕ) w = .ok (.threw .stepAdjustment (t + 1) 1) w' := by
  induction n generalizing w with
  | zero =>
    obtain ⟨r, hr, -⟩ := dopri5_val oneRhs x k t ((0 + 1 : ℕ) : ℚ)
    refine ⟨w + 6, ?_⟩
    rw [dopri5Trials, dopri5Trial_of_step (P := lateCtrl) rfl (hr w), if_neg (by norm_num [lateCtrl])]
    norm_num [lateCtrl]
  | succ n ih =>
    obtain ⟨r, hr, -⟩ := dopri5_val oneRhs x k t ((n + 1 + 1 : ℕ) : ℚ)
    obtain ⟨w', hw⟩ := ih (w + 6)
    refine ⟨w', ?_⟩
    rw [dopri5Trials]
    have h1 : (1 : ℚ) < ((n + 1 + 1 : ℕ) : ℚ) := by push_cast; linarith [(n.cast_nonneg : (0 : ℚ) ≤ n)]
    have h2 : ((n + 1 + 1 : ℕ) : ℚ) - 1 = ((n + 1 : ℕ) : ℚ) := by push_cast; ring
    have : dopri5Trial lateCtrl (countSys oneRhs) x k t ((n + 1 + 1 : ℕ) : ℚ) w =
        .ok (.rejected r ((n + 1 + 1 : ℕ) : ℚ) ((n + 1 : ℕ) : ℚ)) (w + 6) := by
      rw [dopri5Trial_of_step (P := lateCtrl) rfl (hr w), if_pos (by simpa [lateCtrl] using h1), ← h2]
      rfl
    rw [this]
    exact hw

/-- **C34** is violated after one kind of exception: when the 501st trial of a `do_step` is the first acceptable one, the
exception of the step size adjustment is thrown all the same, and `current_time()` has advanced although
`current_state()` has not. -/
theorem dense_late_accept_inconsistent (a : DopriDense ℚ ℚ ℕ) (hdt : a.dt = 501) :
    ∃ a', a.step lateCtrl (countSys oneRhs) = .err .stepAdjustment a' ∧ a'.x = a.x ∧ a'.t = a.t + 1 := by
  have hf : ∀ w, ∃ k w', a.deriv (countSys oneRhs) w = .ok k w' := by
    intro w
    unfold DopriDense.deriv
    cases a.k with
    | some k => exact ⟨k, w, rfl⟩
    | none => exact ⟨_, _, rfl⟩
  obtain ⟨k, w', hk⟩ := hf a.world
  obtain ⟨w'', hw⟩ := late_trials a.x k a.t defaultMaxSteps w'
  have e : ((defaultMaxSteps + 1 : ℕ) : ℚ) = 501 := by norm_num [defaultMaxSteps]
  rw [e] at hw
  refine ⟨⟨a.x, a.t + 1, 1, some k, none, a.user, w''⟩, ?_, rfl, rfl⟩
  unfold DopriDense.step
  rw [hk, hdt]
  simp only [hw]

/-- Whatever the buffers contain, a stepper whose derivative is not initialised is in a state of the abstract machine:
the hypotheses of the theorems above hold after `initialize`. -/
theorem dopri_dense_fresh (P : CtrlParams K V) (f : V → K → V) (h : Heap K V W) (hd : h.flag mDerivInit = false) :
    ∃ a : DopriDense K V W, a.InHeap h ∧ a.DerivValid f ∧ a.LastValid P f :=
  ⟨⟨currentState h, currentTime h, currentTimeStep h, none, none, fun n => h.state (.user n), h.world⟩,
    ⟨rfl, rfl, rfl, hd, by simp, by simp, fun _ => rfl, rfl⟩, fun k hk => (by cases hk), fun s hs => (by cases hs)⟩

/-- `x' = 1` from `x = 2`, `t = 0` with step size 3: two trials are rejected, the step to `t = 1` is accepted. -/
theorem dense_step_witness (u : ℕ → ℚ) : ∃ a' s, (⟨2, 0, 3, none, none, u, 0⟩ : DopriDense ℚ ℚ ℕ).step lateCtrl (countSys oneRhs) =
    .ok (0, 1) a' ∧ a'.x = 3 ∧ a'.dt = 1 ∧ a'.world = 19 ∧ a'.last = some s ∧ s.tOld = 0 ∧ a'.t = 1 := by
  have rej : ∀ (dt : ℚ) (w : ℕ), 1 < dt → dopri5Trial lateCtrl (countSys oneRhs) 2 (oneRhs 2 0) 0 dt w =
      .ok (.rejected (dopri5Fun oneRhs 2 (oneRhs 2 0) 0 dt) dt (dt - 1)) (w + 6) := by
    intro dt w hdt
    rw [dopri5Trial_of_step (P := lateCtrl) (r := dopri5Fun oneRhs 2 (oneRhs 2 0) 0 dt) (w' := w + 6) rfl rfl,
      if_pos (by simpa [lateCtrl] using hdt)]
    rfl
  have acc : ∀ w : ℕ, dopri5Trial lateCtrl (countSys oneRhs) 2 (oneRhs 2 0) 0 1 w =
      .ok (.accepted (dopri5Fun oneRhs 2 (oneRhs 2 0) 0 1) 1 1) (w + 6) := by
    intro w
    rw [dopri5Trial_of_step (P := lateCtrl) (r := dopri5Fun oneRhs 2 (oneRhs 2 0) 0 1) (w' := w + 6) rfl rfl,
      if_neg (by simp [lateCtrl])]
    rfl
  have tr : dopri5Trials lateCtrl (countSys oneRhs) 2 (oneRhs 2 0) 0 defaultMaxSteps 3 1 =
      .ok (.done (dopri5Fun oneRhs 2 (oneRhs 2 0) 0 1) 1 1) 19 := by
    rw [show defaultMaxSteps = 497 + 1 + 1 + 1 from rfl, dopri5Trials, rej _ _ (by norm_num)]
    simp only
    rw [dopri5Trials, rej _ _ (by norm_num)]
    simp only
    rw [dopri5Trials, show (3 : ℚ) - 1 - 1 = 1 by norm_num, acc]
    norm_num
  have run : ∃ k3 k4 k5 k6 k7, (⟨2, 0, 3, none, none, u, 0⟩ : DopriDense ℚ ℚ ℕ).step lateCtrl (countSys oneRhs) =
      .ok (0, 1) ⟨(dopri5Fun oneRhs 2 (oneRhs 2 0) 0 1).x, 1, 1, some (dopri5Fun oneRhs 2 (oneRhs 2 0) 0 1).k7,
        some ⟨2, 0, oneRhs 2 0, k3, k4, k5, k6, k7⟩, u, 19⟩ := by
    refine ⟨1, 1, 1, 1, 1, ?_⟩
    unfold DopriDense.step
    rw [show (⟨2, 0, 3, none, none, u, 0⟩ : DopriDense ℚ ℚ ℕ).deriv (countSys oneRhs) 0 = .ok (oneRhs 2 0) 1 from rfl]
    simp only [tr]
    rfl
  obtain ⟨k3, k4, k5, k6, k7, run⟩ := run
  refine ⟨_, _, run, ?_, rfl, rfl, rfl, rfl, rfl⟩
  norm_num [dopri5Fun, lin, oneRhs, frac, lit]

end Verif
