import Verif.Lemmas.Resume
import Verif.Spec.Direction

/-!
# C80: An integration can be interrupted and continued

The two calls after one another make the same steps and observations as the single call, with the same outcome, exceptions included; only the
observation at the point of interruption, which is the last of the first call and the first of the second call, is made twice.

* `n_steps_resume`: `integrate_n_steps`, interrupted after any number of steps;
* `const_resume`: `integrate_const`, interrupted at any time, and continued from the grid point that has been reached;
* `adaptive_resume`: `integrate_adaptive`, interrupted at any grid point;
* `times_resume`: `integrate_times`, interrupted at any of the given times;
* `reference_memoryless`: the hypothesis of these theorems is satisfied by every stepper that is handed over by reference;
* `explicit_memoryless` and `adams_value_restarts` (`Verif/Props/ResumeSteppers.lean`): which steppers satisfy it when they are handed over by value.
-/

namespace Verif
variable {Q W S : Type} {K : Type} [Field K] [LinearOrder K]

section
variable (A : TimeArith K) (st : BasicStepper Q W S K) (obs : Observer W S K)

theorem nStepsBasicLoop_add (t0 dt : K) (n m step : ℕ) (s : NState Q S K) :
    nStepsBasicLoop A st obs t0 dt (n + m) step s = nStepsBasicLoop A st obs t0 dt n step s >>= nStepsBasicLoop A st obs t0 dt m (step + n) := by
  induction n generalizing step s with
  | zero => simp [nStepsBasicLoop]
  | succ n ih =>
    rw [Nat.succ_add]
    simp only [nStepsBasicLoop, bind_assoc]
    congr 1; funext _; congr 1; funext r
    rw [ih, Nat.succ_add_eq_add_succ]

end

variable [IsStrictOrderedRing K]

theorem nStepsBasicLoop_time {st : BasicStepper Q W S K} {obs : Observer W S K} (eps t0 dt : K) (n step : ℕ) (s s' : NState Q S K) (w w' : W)
    (hs : s.time = t0 + step * dt) (h : nStepsBasicLoop (TimeArith.exact K eps) st obs t0 dt n step s w = .ok s' w') :
    s'.time = t0 + ((step + n : ℕ) : K) * dt := by
  induction n generalizing step s w with
  | zero => cases h; simpa using hs
  | succ n ih =>
    simp only [nStepsBasicLoop] at h
    rw [M.bind_apply] at h
    cases ho : obs s.x s.time w with
    | ok u w1 =>
      rw [ho] at h
      simp only at h
      rw [M.bind_apply] at h
      cases hd : st.doStep s.q s.x s.time dt w1 with
      | ok r w2 =>
        rw [hd] at h
        have := ih (step + 1) _ w2 (by simp [TimeArith.exact]) h
        rw [this]; congr 3; omega
      | err e w2 => rw [hd] at h; cases h
      | ub => rw [hd] at h; cases h
      | div => rw [hd] at h; cases h
    | err e w2 => rw [ho] at h; cases h
    | ub => rw [ho] at h; cases h
    | div => rw [ho] at h; cases h

theorem nStepsBasicLoop_resume {st : BasicStepper Q W S K} (hm : st.Memoryless) (eps t0 dt : K) {l : List (S × K)} {o : S × K} (n m j : ℕ)
    (s s' : NState Q S K) (w w' : W × List (S × K)) (hx : s.x = s'.x) (ht : s.time = s'.time) (h : Resuming l o s'.x s'.time w w') :
    Res.Rel (fun s s' w w' => (s.x = s'.x ∧ s.time = s'.time) ∧ Resuming l o s'.x s'.time w w') (Resumed l o)
      (nStepsBasicLoop (TimeArith.exact K eps) (st.lift (List (S × K))) noteObserver t0 dt m (n + j) s w)
      (nStepsBasicLoop (TimeArith.exact K eps) (st.lift (List (S × K))) noteObserver (t0 + n * dt) dt m j s' w') := by
  induction m generalizing j s s' w w' with
  | zero => exact ⟨⟨hx, ht⟩, h⟩
  | succ m ih =>
    simp only [nStepsBasicLoop]
    rw [hx, ht]
    refine Res.Rel.bind h.note fun _ _ w w' hw => ?_
    refine Res.Rel.bind (hw.step hm _ _ _ _ _) fun r r' w w' hr => ?_
    rw [Nat.add_assoc]
    refine ih (j + 1) _ _ w w' hr.1 ?_ hr.2.resuming
    simp only [TimeArith.exact]
    push_cast
    ring

/-- **C80** for `integrate_n_steps`: `n + m` steps are `n` steps, and then `m` steps from the state and time that have been reached, with another
stepper (`q'`) or the same (`q' = q`). -/
theorem n_steps_resume {st : BasicStepper Q W S K} (hm : st.Memoryless) (eps t0 dt : K) (x : S) (n m : ℕ) (q q' : Q) :
    integrateNStepsBasic (TimeArith.exact K eps) (st.lift (List (S × K))) noteObserver q x t0 dt (n + m) = (do
      let r ← integrateNStepsBasic (TimeArith.exact K eps) (st.lift (List (S × K))) noteObserver q x t0 dt n
      withoutFirst (integrateNStepsBasic (TimeArith.exact K eps) (st.lift (List (S × K))) noteObserver q' r.1 r.2 dt m)) := by
  unfold integrateNStepsBasic
  rw [nStepsBasicLoop_add]
  simp only [bind_assoc, pure_bind]
  funext w
  rw [M.bind_apply, M.bind_apply]
  cases hl : nStepsBasicLoop (TimeArith.exact K eps) (st.lift (List (S × K))) noteObserver t0 dt n 0 ⟨q, x, t0⟩ w with
  | ok s w1 =>
    have ht : s.time = t0 + n * dt := by
      have := nStepsBasicLoop_time eps t0 dt n 0 _ _ _ _ (by simp) hl
      simpa using this
    obtain ⟨v, l⟩ := w1
    simp only
    have key := resume_of_rel (f := id) (x := s.x) (t := s.time) (w := v) (l := l)
      (p := do
        let s ← nStepsBasicLoop (TimeArith.exact K eps) (st.lift (List (S × K))) noteObserver t0 dt m (0 + n) s
        noteObserver s.x s.time
        pure (s.x, s.time))
      (p' := do
        let s ← nStepsBasicLoop (TimeArith.exact K eps) (st.lift (List (S × K))) noteObserver s.time dt m 0 ⟨q', s.x, s.time⟩
        noteObserver s.x s.time
        pure (s.x, s.time)) ?_
    · rw [key]; simp only [id, bind_pure]
    · have h1 := nStepsBasicLoop_resume hm eps t0 dt (l := l) (o := (s.x, s.time)) n m 0 s ⟨q', s.x, s.time⟩ (v, l) (v, []) rfl rfl Resuming.start
      rw [Nat.zero_add, ← ht] at *
      refine Res.Rel.bind h1 ?_
      intro a a' w w' h
      rw [h.1.1, h.1.2]
      refine Res.Rel.bind h.2.note fun _ _ w w' hw => ⟨rfl, hw⟩
  | err e w1 => rfl
  | ub => rfl
  | div => rfl

/-- The condition of the loop of `integrate_const`. -/
theorem const_cond_mono {eps t t1 t2 dt : K} (h : 0 < dt ∧ t1 ≤ t2 ∨ dt ≤ 0 ∧ t2 ≤ t1)
    (hc : (TimeArith.exact K eps).lessEqWithSign t t1 dt = true) : (TimeArith.exact K eps).lessEqWithSign t t2 dt = true := by
  simp only [TimeArith.lessEqWithSign, TimeArith.exact, decide_eq_true_eq] at hc ⊢
  rcases h with ⟨h1, h2⟩ | ⟨h1, h2⟩
  · rw [if_pos h1] at hc ⊢
    simp only [decide_eq_true_eq] at hc ⊢
    linarith
  · rw [if_neg (not_lt.mpr h1)] at hc ⊢
    simp only [decide_eq_true_eq] at hc ⊢
    linarith

/-- `integrate_const` without its last observation. -/
noncomputable def constRun (A : TimeArith K) (st : BasicStepper Q W S K) (obs : Observer W S K) (start end_ dt : K) (s : ConstState Q S K) :
    M W (ConstState Q S K) :=
  whileM (fun s : ConstState Q S K => A.lessEqWithSign (A.add s.time dt) end_ dt)
    (fun s => do
      obs s.x s.time
      let (q, x) ← st.doStep s.q s.x s.time dt
      return ⟨q, x, A.add start (A.nmul (s.step + 1) dt), s.step + 1⟩) s

theorem constRun_time {st : BasicStepper Q W S K} {obs : Observer W S K} (eps t0 t1 dt : K) (s s' : ConstState Q S K) (w w' : W)
    (hs : s.time = t0 + s.step * dt) (h : constRun (TimeArith.exact K eps) st obs t0 t1 dt s w = .ok s' w') :
    s'.time = t0 + s'.step * dt ∧ (s' = s ∨ (TimeArith.exact K eps).lessEqWithSign s'.time t1 dt = true) ∧
      (TimeArith.exact K eps).lessEqWithSign (s'.time + dt) t1 dt = false := by
  have key : ∀ n, ∀ s w, s.time = t0 + s.step * dt →
      whileF (fun s : ConstState Q S K => (TimeArith.exact K eps).lessEqWithSign ((TimeArith.exact K eps).add s.time dt) t1 dt)
        (fun s => do
          obs s.x s.time
          let (q, x) ← st.doStep s.q s.x s.time dt
          return ⟨q, x, (TimeArith.exact K eps).add t0 ((TimeArith.exact K eps).nmul (s.step + 1) dt), s.step + 1⟩) n s w = some (.ok s' w') →
      s'.time = t0 + s'.step * dt ∧ (s' = s ∨ (TimeArith.exact K eps).lessEqWithSign s'.time t1 dt = true) ∧
        (TimeArith.exact K eps).lessEqWithSign (s'.time + dt) t1 dt = false := by
    intro n
    induction n with
    | zero => intro s w _ h; simp [whileF] at h
    | succ n ih =>
      intro s w hs h
      simp only [whileF] at h
      by_cases hc : (TimeArith.exact K eps).lessEqWithSign ((TimeArith.exact K eps).add s.time dt) t1 dt = true
      · rw [if_pos hc] at h
        rw [M.bind_apply] at h
        cases ho : obs s.x s.time w with
        | ok u w1 =>
          rw [ho] at h
          simp only at h
          rw [M.bind_apply] at h
          cases hd : st.doStep s.q s.x s.time dt w1 with
          | ok r w2 =>
            rw [hd] at h
            simp only [M.pure_apply] at h
            obtain ⟨h1, h2, h3⟩ := ih _ w2 (by simp [TimeArith.exact]) h
            refine ⟨h1, Or.inr ?_, h3⟩
            rcases h2 with h2 | h2
            · subst h2
              simp only [TimeArith.exact] at hc ⊢
              rw [hs] at hc
              rw [← hc]; congr 1; push_cast; ring
            · exact h2
          | err e w2 => rw [hd] at h; simp at h
          | ub => rw [hd] at h; simp at h
          | div => rw [hd] at h; simp at h
        | err e w2 => rw [ho] at h; simp at h
        | ub => rw [ho] at h; simp at h
        | div => rw [ho] at h; simp at h
      · rw [if_neg hc] at h
        cases h
        exact ⟨hs, Or.inl rfl, by simpa [TimeArith.exact] using hc⟩
  unfold constRun at h
  rcases whileM_div_or (cond := fun s : ConstState Q S K => (TimeArith.exact K eps).lessEqWithSign ((TimeArith.exact K eps).add s.time dt) t1 dt)
    (body := fun s => do
      obs s.x s.time
      let (q, x) ← st.doStep s.q s.x s.time dt
      return ⟨q, x, (TimeArith.exact K eps).add t0 ((TimeArith.exact K eps).nmul (s.step + 1) dt), s.step + 1⟩) s w with ⟨n, hn⟩ | ⟨_, hd⟩
  · rw [h] at hn
    exact key n s w hs hn
  · rw [h] at hd; cases hd

/-- The second part of the loop, and the loop of the second call. -/
theorem constRun_resume {st : BasicStepper Q W S K} (hm : st.Memoryless) (eps t0 t2 dt : K) {l : List (S × K)} {o : S × K} (n : ℕ)
    (s s' : ConstState Q S K) (w w' : W × List (S × K)) (hx : s.x = s'.x) (ht : s.time = s'.time) (hn : s.step = n + s'.step)
    (h : Resuming l o s'.x s'.time w w') :
    Res.Rel (fun s s' w w' => (s.x = s'.x ∧ s.time = s'.time ∧ s.step = n + s'.step) ∧ Resuming l o s'.x s'.time w w') (Resumed l o)
      (constRun (TimeArith.exact K eps) (st.lift (List (S × K))) noteObserver t0 t2 dt s w)
      (constRun (TimeArith.exact K eps) (st.lift (List (S × K))) noteObserver (t0 + n * dt) t2 dt s' w') := by
  unfold constRun
  refine whileM_rel (fun (s s' : ConstState Q S K) w w' => (s.x = s'.x ∧ s.time = s'.time ∧ s.step = n + s'.step) ∧ Resuming l o s'.x s'.time w w') _ ?_ ?_ ⟨⟨hx, ht, hn⟩, h⟩
  · rintro s s' w w' ⟨⟨h1, h2, h3⟩, -⟩
    simp only [h2]
  · rintro s s' w w' ⟨⟨h1, h2, h3⟩, h4⟩ -
    rw [h1, h2]
    refine Res.Rel.bind h4.note fun _ _ w w' hw => ?_
    refine Res.Rel.bind (hw.step hm _ _ _ _ _) fun r r' w w' hr => ?_
    refine ⟨⟨hr.1, ?_, by simp only [h3]; omega⟩, hr.2.resuming⟩
    simp only [TimeArith.exact, h3]
    push_cast
    ring

theorem integrateConstBasic_eq (A : TimeArith K) (st : BasicStepper Q W S K) (obs : Observer W S K) (q : Q) (x : S) (t0 t1 dt : K) :
    integrateConstBasic A st obs q x t0 t1 dt = do
      let s ← constRun A st obs t0 t1 dt ⟨q, x, t0, 0⟩
      obs s.x s.time
      return (s.x, s.step) := rfl

/-- A run of `integrate_const` to a later time. -/
theorem constRun_two {st : BasicStepper Q W S K} {obs : Observer W S K} (eps t0 t1 t2 dt : K) (h : 0 < dt ∧ t1 ≤ t2 ∨ dt ≤ 0 ∧ t2 ≤ t1)
    (s : ConstState Q S K) :
    constRun (TimeArith.exact K eps) st obs t0 t2 dt s =
      constRun (TimeArith.exact K eps) st obs t0 t1 dt s >>= constRun (TimeArith.exact K eps) st obs t0 t2 dt :=
  whileM_two _ _ _ (fun _ hc => const_cond_mono h hc) s

/-- **C80** for `integrate_const`: integrating to `t1`, and then on to `t2` from the grid point that has been reached, is integrating to `t2`.  The numbers of
steps add up. -/
theorem const_resume {st : BasicStepper Q W S K} (hm : st.Memoryless) (eps t0 t1 t2 dt : K) (x : S) (q q' : Q)
    (h : 0 < dt ∧ t1 ≤ t2 ∨ dt ≤ 0 ∧ t2 ≤ t1) :
    integrateConstBasic (TimeArith.exact K eps) (st.lift (List (S × K))) noteObserver q x t0 t2 dt = do
      let r₁ ← integrateConstBasic (TimeArith.exact K eps) (st.lift (List (S × K))) noteObserver q x t0 t1 dt
      let r₂ ← withoutFirst (integrateConstBasic (TimeArith.exact K eps) (st.lift (List (S × K))) noteObserver q' r₁.1 (t0 + r₁.2 * dt) t2 dt)
      return (r₂.1, r₁.2 + r₂.2) := by
  simp only [integrateConstBasic_eq]
  rw [constRun_two eps t0 t1 t2 dt h]
  simp only [bind_assoc, pure_bind]
  funext w
  rw [M.bind_apply, M.bind_apply]
  cases hl : constRun (TimeArith.exact K eps) (st.lift (List (S × K))) noteObserver t0 t1 dt ⟨q, x, t0, 0⟩ w with
  | ok s w1 =>
    have ht := (constRun_time eps t0 t1 dt _ _ _ _ (by simp) hl).1
    obtain ⟨v, l⟩ := w1
    simp only
    have key := resume_of_rel (f := fun r : S × ℕ => (r.1, s.step + r.2)) (x := s.x) (t := s.time) (w := v) (l := l)
      (p := do
        let s ← constRun (TimeArith.exact K eps) (st.lift (List (S × K))) noteObserver t0 t2 dt s
        noteObserver s.x s.time
        pure (s.x, s.step))
      (p' := do
        let s ← constRun (TimeArith.exact K eps) (st.lift (List (S × K))) noteObserver (t0 + s.step * dt) t2 dt ⟨q', s.x, t0 + s.step * dt, 0⟩
        noteObserver s.x s.time
        pure (s.x, s.step)) ?_
    · exact key
    · have h1 := constRun_resume hm eps t0 t2 dt (l := l) (o := (s.x, s.time)) s.step s ⟨q', s.x, s.time, 0⟩ (v, l) (v, []) rfl rfl rfl Resuming.start
      rw [ht] at h1 ⊢
      refine Res.Rel.bind h1 ?_
      intro a a' w w' h
      rw [h.1.1, h.1.2.1]
      refine Res.Rel.bind h.2.note fun _ _ w w' hw => ⟨?_, hw⟩
      rw [h.1.2.2]
  | err e w1 => rfl
  | ub => rfl
  | div => rfl

/-- A grid point is reached exactly. -/
theorem constRun_grid {st : BasicStepper Q W S K} {obs : Observer W S K} (eps t0 dt : K) (h0 : 0 ≤ eps) (h1 : eps < |dt|) (n : ℕ) (q : Q) (x : S)
    (s : ConstState Q S K) (w w' : W)
    (h : constRun (TimeArith.exact K eps) st obs t0 (t0 + n * dt) dt ⟨q, x, t0, 0⟩ w = .ok s w') : s.step = n ∧ s.time = t0 + n * dt := by
  obtain ⟨e, h2, h3⟩ := constRun_time eps t0 _ dt _ _ _ _ (by simp) h
  have hn : s.step = n := by
    simp only [TimeArith.lessEqWithSign, TimeArith.exact, decide_eq_true_eq] at h2 h3
    by_cases hd : 0 < dt
    · rw [if_pos hd] at h2 h3
      rw [abs_of_pos hd] at h1
      simp only [decide_eq_true_eq, decide_eq_false_iff_not, not_le] at h2 h3
      rw [e] at h2 h3
      have a1 : n ≤ s.step := by
        by_contra hc
        have : ((s.step : ℕ) : K) + 1 ≤ n := by exact_mod_cast (by omega : s.step + 1 ≤ n)
        nlinarith
      rcases h2 with h2 | h2
      · rw [h2] at a1 ⊢; simp at a1 ⊢; omega
      · by_contra hc
        have : ((n : ℕ) : K) + 1 ≤ s.step := by exact_mod_cast (by omega : n + 1 ≤ s.step)
        nlinarith
    · rw [if_neg hd] at h2 h3
      have hd' : dt < 0 := lt_of_le_of_ne (not_lt.mp hd) (by rintro rfl; rw [abs_zero] at h1; linarith)
      rw [abs_of_neg hd'] at h1
      simp only [decide_eq_true_eq, decide_eq_false_iff_not, not_le] at h2 h3
      rw [e] at h2 h3
      have a1 : n ≤ s.step := by
        by_contra hc
        have : ((s.step : ℕ) : K) + 1 ≤ n := by exact_mod_cast (by omega : s.step + 1 ≤ n)
        nlinarith
      rcases h2 with h2 | h2
      · rw [h2] at a1 ⊢; simp at a1 ⊢; omega
      · by_contra hc
        have : ((n : ℕ) : K) + 1 ≤ s.step := by exact_mod_cast (by omega : n + 1 ≤ s.step)
        nlinarith
  exact ⟨hn, by rw [e, hn]⟩

/-- The last step of `integrate_adaptive`. -/
noncomputable def adaptiveEnd (A : TimeArith K) (st : BasicStepper Q W S K) (obs : Observer W S K) (q : Q) (start end_ dt : K) (r : S × ℕ) : M W (S × ℕ) :=
  if A.lessWithSign (A.add start (A.nmul r.2 dt)) end_ dt then do
    let p ← st.doStep q r.1 (A.add start (A.nmul r.2 dt)) (A.sub end_ (A.add start (A.nmul r.2 dt)))
    obs p.2 end_
    return (p.2, r.2 + 1)
  else
    return (r.1, r.2)

theorem integrateAdaptiveBasic_eq (A : TimeArith K) (st : BasicStepper Q W S K) (obs : Observer W S K) (q : Q) (x : S) (t0 t1 dt : K) :
    integrateAdaptiveBasic A st obs q x t0 t1 dt = integrateConstBasic A st obs q x t0 t1 dt >>= adaptiveEnd A st obs q t0 t1 dt := rfl

theorem adaptiveEnd_resume {st : BasicStepper Q W S K} (hm : st.Memoryless) (eps t0 t2 dt : K) {l : List (S × K)} {o : S × K} (n : ℕ) (q q' : Q)
    (r r' : S × ℕ) (w w' : W × List (S × K)) (h : (r = (r'.1, n + r'.2)) ∧ Resumed l o w w') :
    Res.Rel (fun r r' w w' => r = (r'.1, n + r'.2) ∧ Resumed l o w w') (Resumed l o)
      (adaptiveEnd (TimeArith.exact K eps) (st.lift (List (S × K))) noteObserver q t0 t2 dt r w)
      (adaptiveEnd (TimeArith.exact K eps) (st.lift (List (S × K))) noteObserver q' (t0 + n * dt) t2 dt r' w') := by
  obtain ⟨rfl, h⟩ := h
  have e : (TimeArith.exact K eps).add t0 ((TimeArith.exact K eps).nmul (n + r'.2) dt) =
      (TimeArith.exact K eps).add (t0 + n * dt) ((TimeArith.exact K eps).nmul r'.2 dt) := by
    simp only [TimeArith.exact]; push_cast; ring
  unfold adaptiveEnd
  simp only [e]
  by_cases hc : (TimeArith.exact K eps).lessWithSign ((TimeArith.exact K eps).add (t0 + n * dt) ((TimeArith.exact K eps).nmul r'.2 dt)) t2 dt = true
  · rw [if_pos hc, if_pos hc]
    refine Res.Rel.bind (h.step hm _ _ _ _ _) fun p p' w w' hp => ?_
    rw [hp.1]
    refine Res.Rel.bind (hp.2.resuming.note) fun _ _ w w' hw => ⟨by simp [Nat.add_assoc], hw⟩
  · rw [if_neg hc, if_neg hc]
    exact ⟨rfl, h⟩

/-- **C80** for `integrate_adaptive`, interrupted at a grid point: integrating to `t0 + n*dt`, and from there to `t2`, is integrating to `t2`. -/
theorem adaptive_resume {st : BasicStepper Q W S K} (hm : st.Memoryless) (eps t0 t2 dt : K) (h0 : 0 ≤ eps) (h1 : eps < |dt|) (x : S) (n : ℕ) (q q' : Q)
    (h : 0 < dt ∧ t0 + n * dt ≤ t2 ∨ dt ≤ 0 ∧ t2 ≤ t0 + n * dt) :
    integrateAdaptiveBasic (TimeArith.exact K eps) (st.lift (List (S × K))) noteObserver q x t0 t2 dt = do
      let r₁ ← integrateAdaptiveBasic (TimeArith.exact K eps) (st.lift (List (S × K))) noteObserver q x t0 (t0 + n * dt) dt
      let r₂ ← withoutFirst (integrateAdaptiveBasic (TimeArith.exact K eps) (st.lift (List (S × K))) noteObserver q' r₁.1 (t0 + n * dt) t2 dt)
      return (r₂.1, r₁.2 + r₂.2) := by
  simp only [integrateAdaptiveBasic_eq, integrateConstBasic_eq]
  rw [constRun_two eps t0 (t0 + n * dt) t2 dt h]
  simp only [bind_assoc, pure_bind]
  funext w
  rw [M.bind_apply, M.bind_apply]
  cases hl : constRun (TimeArith.exact K eps) (st.lift (List (S × K))) noteObserver t0 (t0 + n * dt) dt ⟨q, x, t0, 0⟩ w with
  | ok s w1 =>
    obtain ⟨hn, ht⟩ := constRun_grid eps t0 dt h0 h1 n q x s _ _ hl
    have hlast : adaptiveEnd (TimeArith.exact K eps) (st.lift (List (S × K))) noteObserver q t0 (t0 + n * dt) dt (s.x, s.step) =
        (pure (s.x, s.step) : M (W × List (S × K)) (S × ℕ)) := by
      unfold adaptiveEnd
      rw [if_neg]
      simp [TimeArith.lessWithSign, TimeArith.exact, hn, h0]
    obtain ⟨v, l⟩ := w1
    simp only [hlast, pure_bind]
    have key := resume_of_rel (f := fun r : S × ℕ => (r.1, s.step + r.2)) (x := s.x) (t := s.time) (w := v) (l := l)
      (p := do
        let s ← constRun (TimeArith.exact K eps) (st.lift (List (S × K))) noteObserver t0 t2 dt s
        noteObserver s.x s.time
        adaptiveEnd (TimeArith.exact K eps) (st.lift (List (S × K))) noteObserver q t0 t2 dt (s.x, s.step))
      (p' := do
        let s ← constRun (TimeArith.exact K eps) (st.lift (List (S × K))) noteObserver (t0 + n * dt) t2 dt ⟨q', s.x, t0 + n * dt, 0⟩
        noteObserver s.x s.time
        adaptiveEnd (TimeArith.exact K eps) (st.lift (List (S × K))) noteObserver q' (t0 + n * dt) t2 dt (s.x, s.step)) ?_
    · exact key
    · have h1 := constRun_resume hm eps t0 t2 dt (l := l) (o := (s.x, s.time)) n s ⟨q', s.x, s.time, 0⟩ (v, l) (v, []) rfl rfl hn Resuming.start
      rw [ht] at h1 ⊢
      refine Res.Rel.bind h1 ?_
      intro a a' w w' h
      rw [h.1.1, h.1.2.1, hn]
      refine Res.Rel.bind h.2.note fun _ _ w w' hw => ?_
      exact adaptiveEnd_resume hm eps t0 t2 dt n q q' _ _ w w' ⟨by rw [h.1.2.2], hw⟩
  | err e w1 => rfl
  | ub => rfl
  | div => rfl

/-! ## `integrate_times` -/

/-- The inner loop in the two runs. -/
theorem timesBasicInner_resume {st : BasicStepper Q W S K} (hm : st.Memoryless) (eps dt next : K) (h0 : 0 ≤ eps) {l : List (S × K)} {o : S × K} (n : ℕ)
    (s s' : TimesState Q S K) (w w' : W × List (S × K)) (hx : s.x = s'.x) (ht : s.time = s'.time) (hs : s.steps = n + s'.steps)
    (hd : 0 < s.dt ↔ 0 < dt) (hd' : 0 < s'.dt ↔ 0 < dt) (h : Resumed l o w w') :
    Res.Rel (fun s s' w w' => (s.x = s'.x ∧ s.time = s'.time ∧ s.steps = n + s'.steps ∧ (0 < s.dt ↔ 0 < dt) ∧ (0 < s'.dt ↔ 0 < dt)) ∧ Resumed l o w w')
      (Resumed l o) (timesBasicInner (TimeArith.exact K eps) (st.lift (List (S × K))) dt next s w)
      (timesBasicInner (TimeArith.exact K eps) (st.lift (List (S × K))) dt next s' w') := by
  unfold timesBasicInner
  refine whileM_rel (fun (s s' : TimesState Q S K) w w' => (s.x = s'.x ∧ s.time = s'.time ∧ s.steps = n + s'.steps ∧ (0 < s.dt ↔ 0 < dt) ∧
    (0 < s'.dt ↔ 0 < dt)) ∧ Resumed l o w w') _ ?_ ?_ ⟨⟨hx, ht, hs, hd, hd'⟩, h⟩
  · rintro s s' w w' ⟨⟨h1, h2, h3, h4, h5⟩, -⟩
    simp only [TimeArith.lessWithSign, TimeArith.exact, h2, h4, h5]
  · rintro s s' w w' ⟨⟨h1, h2, h3, h4, h5⟩, h6⟩ hc
    rw [h1, h2]
    refine Res.Rel.bind (h6.step hm _ _ _ _ _) fun r r' w w' hr => ?_
    have hsign : 0 < (TimeArith.exact K eps).minAbs dt ((TimeArith.exact K eps).sub next s'.time) ↔ 0 < dt := by
      simp only [TimeArith.lessWithSign, TimeArith.minAbs, TimeArith.stdMin, TimeArith.stdMax, TimeArith.exact, decide_eq_true_eq, h4, h2] at hc ⊢
      by_cases hp : 0 < dt
      · rw [if_pos hp] at hc ⊢
        simp only [decide_eq_true_eq] at hc
        refine ⟨fun _ => hp, fun _ => ?_⟩
        split <;> linarith
      · rw [if_neg hp] at hc ⊢
        simp only [decide_eq_true_eq] at hc
        refine ⟨fun hq => ?_, fun hq => absurd hq hp⟩
        split at hq <;> linarith
    exact ⟨⟨hr.1, rfl, by simp only [h3]; omega, hsign, hsign⟩, hr.2⟩

/-- The outer loop in the two runs. -/
theorem timesBasicLoop_resume {st : BasicStepper Q W S K} (hm : st.Memoryless) (eps dt : K) (h0 : 0 ≤ eps) {l : List (S × K)} {o : S × K} (n : ℕ)
    (t : K) (ts : List K) (s s' : TimesState Q S K) (w w' : W × List (S × K)) (hx : s.x = s'.x) (hs : s.steps = n + s'.steps)
    (hd : 0 < s.dt ↔ 0 < dt) (hd' : 0 < s'.dt ↔ 0 < dt) (h : Resuming l o s'.x t w w') :
    Res.Rel (fun r r' w w' => r = (r'.1, n + r'.2) ∧ Resumed l o w w')
      (Resumed l o) (timesBasicLoop (TimeArith.exact K eps) (st.lift (List (S × K))) noteObserver dt (t :: ts) s w)
      (timesBasicLoop (TimeArith.exact K eps) (st.lift (List (S × K))) noteObserver dt (t :: ts) s' w') := by
  induction ts generalizing t s s' w w' with
  | nil =>
    simp only [timesBasicLoop]
    rw [hx]
    exact Res.Rel.bind h.note fun _ _ w w' hw => ⟨by rw [hs], hw⟩
  | cons t' ts ih =>
    simp only [timesBasicLoop]
    rw [hx]
    refine Res.Rel.bind h.note fun _ _ w w' hw => ?_
    have h1 := timesBasicInner_resume hm eps dt t' h0 n { s with time := t } { s' with time := t } w w' hx rfl hs hd hd' hw
    rw [hx] at h1
    refine Res.Rel.bind h1 fun a a' w w' ha => ?_
    exact ih t' a a' w w' ha.1.1 ha.1.2.2.1 ha.1.2.2.2.1 ha.1.2.2.2.2 ha.2.resuming

/-- The direction is kept. -/
theorem timesBasicInner_sign {st : BasicStepper Q W S K} (eps dt next : K) (h0 : 0 ≤ eps) (s s' : TimesState Q S K) (w w' : W)
    (hd : 0 < s.dt ↔ 0 < dt) (h : timesBasicInner (TimeArith.exact K eps) st dt next s w = .ok s' w') : 0 < s'.dt ↔ 0 < dt := by
  unfold timesBasicInner at h
  rcases whileM_div_or (cond := fun s : TimesState Q S K => (TimeArith.exact K eps).lessWithSign s.time next s.dt)
    (body := fun s => do
      let cdt := (TimeArith.exact K eps).minAbs dt ((TimeArith.exact K eps).sub next s.time)
      let (q, x) ← st.doStep s.q s.x s.time cdt
      return ⟨q, x, (TimeArith.exact K eps).add s.time cdt, cdt, s.steps + 1, s.fails⟩) s w with ⟨n, hn⟩ | ⟨_, hd⟩
  · rw [h] at hn
    clear h
    induction n generalizing s w with
    | zero => simp [whileF] at hn
    | succ n ih =>
      simp only [whileF] at hn
      by_cases hc : (TimeArith.exact K eps).lessWithSign s.time next s.dt = true
      · rw [if_pos hc] at hn
        rw [M.bind_apply] at hn
        cases hr : st.doStep s.q s.x s.time ((TimeArith.exact K eps).minAbs dt ((TimeArith.exact K eps).sub next s.time)) w with
        | ok r w1 =>
          rw [hr] at hn
          refine ih _ w1 ?_ hn
          simp only [TimeArith.lessWithSign, TimeArith.minAbs, TimeArith.stdMin, TimeArith.stdMax, TimeArith.exact, decide_eq_true_eq, hd] at hc ⊢
          by_cases hp : 0 < dt
          · rw [if_pos hp] at hc ⊢
            simp only [decide_eq_true_eq] at hc
            refine ⟨fun _ => hp, fun _ => ?_⟩
            split <;> linarith
          · rw [if_neg hp] at hc ⊢
            simp only [decide_eq_true_eq] at hc
            refine ⟨fun hq => ?_, fun hq => absurd hq hp⟩
            split at hq <;> linarith
        | err e w1 => rw [hr] at hn; simp at hn
        | ub => rw [hr] at hn; simp at hn
        | div => rw [hr] at hn; simp at hn
      · rw [if_neg hc] at hn
        cases hn
        exact hd
  · rw [h] at hd; cases hd

theorem timesBasicLoop_split {st : BasicStepper Q W S K} (hm : st.Memoryless) (eps dt : K) (h0 : 0 ≤ eps) (q' : Q) (t : K) (l₁ l₂ : List K)
    (s : TimesState Q S K) (hd : 0 < s.dt ↔ 0 < dt) (w : W × List (S × K)) :
    timesBasicLoop (TimeArith.exact K eps) (st.lift (List (S × K))) noteObserver dt (l₁ ++ t :: l₂) s w = (do
      let r₁ ← timesBasicLoop (TimeArith.exact K eps) (st.lift (List (S × K))) noteObserver dt (l₁ ++ [t]) s
      let r₂ ← withoutFirst (integrateTimesBasic (TimeArith.exact K eps) (st.lift (List (S × K))) noteObserver q' r₁.1 (t :: l₂) dt)
      return (r₂.1, r₁.2 + r₂.2) : M (W × List (S × K)) (S × ℕ)) w := by
  induction l₁ generalizing s w with
  | nil =>
    obtain ⟨v, l⟩ := w
    rw [List.nil_append, resume_of_rel (f := fun r : S × ℕ => (r.1, s.steps + r.2)) (x := s.x) (t := t)
      (p' := integrateTimesBasic (TimeArith.exact K eps) (st.lift (List (S × K))) noteObserver q' s.x (t :: l₂) dt)
      (timesBasicLoop_resume hm eps dt h0 s.steps t l₂ s ⟨q', s.x, 0, dt, 0, 0⟩ (v, l) (v, []) rfl rfl hd Iff.rfl Resuming.start)]
    simp only [List.nil_append, timesBasicLoop, bind_assoc, pure_bind]
  | cons a l₁ ih =>
    have key : ∀ b r r', l₁ ++ t :: l₂ = b :: r → l₁ ++ [t] = b :: r' →
        timesBasicLoop (TimeArith.exact K eps) (st.lift (List (S × K))) noteObserver dt (a :: b :: r) s w = (do
          let r₁ ← timesBasicLoop (TimeArith.exact K eps) (st.lift (List (S × K))) noteObserver dt (a :: b :: r') s
          let r₂ ← withoutFirst (integrateTimesBasic (TimeArith.exact K eps) (st.lift (List (S × K))) noteObserver q' r₁.1 (t :: l₂) dt)
          return (r₂.1, r₁.2 + r₂.2) : M (W × List (S × K)) (S × ℕ)) w := by
      intro b r r' e1 e2
      simp only [timesBasicLoop, bind_assoc]
      rw [← e1, ← e2]
      have eo : (noteObserver s.x a : M (W × List (S × K)) Unit) w = .ok () (w.1, w.2 ++ [(s.x, a)]) := rfl
      rw [M.bind_ok eo, M.bind_ok eo]
      rw [M.bind_apply, M.bind_apply]
      cases hi : timesBasicInner (TimeArith.exact K eps) (st.lift (List (S × K))) dt b { s with time := a } (w.1, w.2 ++ [(s.x, a)]) with
      | ok s1 w1 => exact ih s1 (timesBasicInner_sign eps dt b h0 { s with time := a } s1 _ _ hd hi) w1
      | err e w1 => rfl
      | ub => rfl
      | div => rfl
    cases l₁ with
    | nil => exact key t l₂ [] rfl rfl
    | cons b l₁ => exact key b (l₁ ++ t :: l₂) (l₁ ++ [t]) rfl rfl

/-- **C80** for `integrate_times`: the sequence of times may be divided at any time, which is then the last time of the first call and the first time of the
second call. -/
theorem times_resume {st : BasicStepper Q W S K} (hm : st.Memoryless) (eps dt : K) (h0 : 0 ≤ eps) (x : S) (q q' : Q) (t : K) (l₁ l₂ : List K) :
    integrateTimesBasic (TimeArith.exact K eps) (st.lift (List (S × K))) noteObserver q x (l₁ ++ t :: l₂) dt = do
      let r₁ ← integrateTimesBasic (TimeArith.exact K eps) (st.lift (List (S × K))) noteObserver q x (l₁ ++ [t]) dt
      let r₂ ← withoutFirst (integrateTimesBasic (TimeArith.exact K eps) (st.lift (List (S × K))) noteObserver q' r₁.1 (t :: l₂) dt)
      return (r₂.1, r₁.2 + r₂.2) :=
  funext fun w => timesBasicLoop_split hm eps dt h0 q' t l₁ l₂ _ Iff.rfl w

/-! ## The hypothesis -/

omit [LinearOrder K] [IsStrictOrderedRing K] [Field K] in
/-- A stepper of any kind satisfies the hypothesis if it is handed over by reference. -/
theorem reference_memoryless {T : Type} (st : BasicStepper Q W S T) : st.byReference.Memoryless := fun _ _ _ _ _ => rfl

end Verif
