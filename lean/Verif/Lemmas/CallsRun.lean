import Verif.Lemmas.Calls

/-! # Counting calls through the integrate functions -/

set_option linter.unusedSectionVars false

namespace Verif
variable {Q W S T σ : Type} {calls : W → ℕ} {mode : Q → σ} {cost : σ → ℕ} {next : σ → σ} {st : BasicStepper Q W S T} {obs : Observer W S T} {A : TimeArith T}

/-- one more step at the end -/
theorem totalCost_succ (m : σ) (n : ℕ) : totalCost cost next m (n + 1) = totalCost cost next m n + cost (next^[n] m) := by
  induction n generalizing m with
  | zero => simp [totalCost]
  | succ n ih =>
    rw [totalCost, ih, totalCost, Function.iterate_succ_apply]
    ring

/-- the modes that do not change -/
theorem totalCost_fixed {m : σ} (h : next m = m) (n : ℕ) : totalCost cost next m n = n * cost m := by
  induction n with
  | zero => simp [totalCost]
  | succ n ih => rw [totalCost, h, ih]; ring

theorem nSteps_calls (hst : st.Costs calls mode cost next) (ho : obs.Quiet calls) (start dt : T) (k step : ℕ) (s s' : NState Q S T) (w w' : W)
    (e : nStepsBasicLoop A st obs start dt k step s w = .ok s' w') : calls w' = calls w + totalCost cost next (mode s.q) k := by
  induction k generalizing step s w with
  | zero => cases e; simp [totalCost]
  | succ k ih =>
    obtain ⟨_, w1, e1, e⟩ := bind_ok_inv e
    obtain ⟨⟨q, x⟩, w2, e2, e⟩ := bind_ok_inv e
    obtain ⟨h1, h2⟩ := hst _ _ _ _ _ _ _ _ e2
    rw [ih _ _ _ e, h1, ho _ _ _ _ e1, h2, totalCost]
    ring

theorem const_calls (hst : st.Costs calls mode cost next) (ho : obs.Quiet calls) {q : Q} {x x' : S} {start end_ dt : T} {n : ℕ} {w w' : W}
    (e : integrateConstBasic A st obs q x start end_ dt w = .ok (x', n) w') : calls w' = calls w + totalCost cost next (mode q) n := by
  obtain ⟨s, w1, e1, e⟩ := bind_ok_inv e
  obtain ⟨_, w2, e2, e⟩ := bind_ok_inv e
  cases e
  have key := (whileM_ok_inv₂ (fun (s : ConstState Q S T) v => calls v = calls w + totalCost cost next (mode q) s.step ∧
      mode s.q = next^[s.step] (mode q)) ?_ ⟨by simp [totalCost], rfl⟩ e1).1.1
  · rw [ho _ _ _ _ e2, key]
  · intro s v s' v' ⟨hI, hr⟩ _ eb
    obtain ⟨_, w1, e1, eb⟩ := bind_ok_inv eb
    obtain ⟨⟨q, x⟩, w2, e2, eb⟩ := bind_ok_inv eb
    cases eb
    obtain ⟨h1, h2⟩ := hst _ _ _ _ _ _ _ _ e2
    exact ⟨by rw [h1, ho _ _ _ _ e1, hI, totalCost_succ, hr]; ring, by rw [h2, hr, Function.iterate_succ_apply']⟩

theorem adaptive_calls (hst : st.Costs calls mode cost next) (ho : obs.Quiet calls) {q : Q} {x x' : S} {start end_ dt : T} {n : ℕ} {w w' : W}
    (e : integrateAdaptiveBasic A st obs q x start end_ dt w = .ok (x', n) w') :
    calls w' = calls w + totalCost cost next (mode q) n ∨ ∃ k, n = k + 1 ∧ calls w' = calls w + totalCost cost next (mode q) k + cost (mode q) := by
  obtain ⟨⟨x1, k⟩, w1, e1, e⟩ := bind_ok_inv e
  have h1 := const_calls hst ho e1
  dsimp only at e
  split at e
  · obtain ⟨⟨_, x2⟩, w2, e2, e⟩ := bind_ok_inv e
    obtain ⟨_, w3, e3, e⟩ := bind_ok_inv e
    cases e
    exact Or.inr ⟨k, rfl, by rw [ho _ _ _ _ e3, (hst _ _ _ _ _ _ _ _ e2).1, h1]⟩
  · cases e
    exact Or.inl h1

theorem timesInner_calls (hst : st.Costs calls mode cost next) (m : σ) (w0 : W) {dt t' : T} {s s' : TimesState Q S T} {w w' : W}
    (hw : calls w = calls w0 + totalCost cost next m s.steps ∧ mode s.q = next^[s.steps] m)
    (e : timesBasicInner A st dt t' s w = .ok s' w') : calls w' = calls w0 + totalCost cost next m s'.steps ∧ mode s'.q = next^[s'.steps] m := by
  refine (whileM_ok_inv₂ (fun (s : TimesState Q S T) v => calls v = calls w0 + totalCost cost next m s.steps ∧ mode s.q = next^[s.steps] m) ?_ hw e).1
  intro s v s' v' ⟨hI, hr⟩ _ eb
  obtain ⟨⟨q, x⟩, w2, e2, eb⟩ := bind_ok_inv eb
  cases eb
  obtain ⟨h1, h2⟩ := hst _ _ _ _ _ _ _ _ e2
  exact ⟨by rw [h1, hI, totalCost_succ, hr]; ring, by rw [h2, hr, Function.iterate_succ_apply']⟩

theorem timesLoop_calls (hst : st.Costs calls mode cost next) (ho : obs.Quiet calls) (m : σ) (w0 : W) (dt : T) (l : List T) {s : TimesState Q S T} {x' : S} {n : ℕ}
    {w w' : W} (hw : calls w = calls w0 + totalCost cost next m s.steps ∧ mode s.q = next^[s.steps] m)
    (e : timesBasicLoop A st obs dt l s w = .ok (x', n) w') : calls w' = calls w0 + totalCost cost next m n := by
  induction l generalizing s w with
  | nil => cases e
  | cons t l ih =>
    cases l with
    | nil =>
      obtain ⟨_, w1, e1, e⟩ := bind_ok_inv e
      cases e
      rw [ho _ _ _ _ e1, hw.1]
    | cons t' l =>
      obtain ⟨_, w1, e1, e⟩ := bind_ok_inv e
      obtain ⟨s', w2, e2, e⟩ := bind_ok_inv e
      exact ih (timesInner_calls hst m w0 (by rw [ho _ _ _ _ e1]; exact hw) e2) e

/-! ## Controlled steppers -/

variable {lo hi : ℕ} {sc : ControlledStepper Q W S T}

theorem retry_calls (hst : sc.Takes calls lo hi) {s s' : AdaptState Q S T} {w w' : W} (hf : s.fails = 0)
    (e : retryLoop sc s w = .ok s' w') : calls w + lo ≤ calls w' ∧ calls w' ≤ calls w + 500 * hi := by
  have body : ∀ (s s' : AdaptState Q S T) v v', retryBody sc s v = .ok s' v' →
      s.fails < 500 ∧ s'.fails = s.fails + 1 ∧ calls v' ≤ calls v + hi ∧ calls v ≤ calls v' ∧ (s'.success = true → calls v + lo ≤ calls v') := by
    intro s s' v v' eb
    obtain ⟨r, w1, e1, eb⟩ := bind_ok_inv eb
    obtain ⟨f, w2, e2, eb⟩ := bind_ok_inv eb
    obtain ⟨h1, h2, h3⟩ := hst _ _ _ _ _ _ _ e1
    cases eb
    unfold failedStepChecker defaultMaxSteps at e2
    split at e2
    · cases e2
    · cases e2
      exact ⟨by omega, rfl, h1, h3, h2⟩
  obtain ⟨s1, w1, e1, e⟩ := bind_ok_inv e
  obtain ⟨a1, a2, a3, a4, a5⟩ := body _ _ _ _ e1
  have key := whileM_ok_inv₂ (fun (s : AdaptState Q S T) v => s.fails ≤ 500 ∧ calls v ≤ calls w + s.fails * hi ∧ calls w ≤ calls v ∧
      (s.success = true → calls w + lo ≤ calls v)) ?_ ⟨by omega, by rw [a2, hf]; omega, a4, a5⟩ e
  · obtain ⟨⟨b1, b2, b3, b4⟩, b5⟩ := key
    exact ⟨b4 (by simpa using b5), b2.trans (by nlinarith)⟩
  · intro s v s' v' ⟨b1, b2, b3, b4⟩ _ eb
    obtain ⟨a1, a2, a3, a4, a5⟩ := body _ _ _ _ eb
    refine ⟨by omega, ?_, by omega, fun h => by have := a5 h; omega⟩
    rw [a2]
    nlinarith

theorem adaptiveControlled_calls (hst : sc.Takes calls lo hi) (ho : obs.Quiet calls) {q : Q} {x : S} {start end_ dt : T} {r : AdaptResult S T} {w w' : W}
    (e : integrateAdaptiveControlled A sc obs q x start end_ dt w = .ok r w') :
    calls w + r.count * lo ≤ calls w' ∧ calls w' ≤ calls w + r.count * (500 * hi) := by
  obtain ⟨⟨s, n⟩, w1, e1, e⟩ := bind_ok_inv e
  obtain ⟨_, w2, e2, e⟩ := bind_ok_inv e
  cases e
  have key := (whileM_ok_inv₂ (fun (p : AdaptState Q S T × ℕ) v => p.1.fails = 0 ∧ calls w + p.2 * lo ≤ calls v ∧ calls v ≤ calls w + p.2 * (500 * hi))
    ?_ ⟨rfl, by simp, by simp⟩ e1).1
  · rw [ho _ _ _ _ e2]
    exact key.2
  · intro p v p' v' ⟨b1, b2, b3⟩ _ eb
    obtain ⟨_, w1, e1, eb⟩ := bind_ok_inv eb
    obtain ⟨s', w2, e2, eb⟩ := bind_ok_inv eb
    cases eb
    obtain ⟨a1, a2⟩ := retry_calls hst (s := { p.1 with dt := clipDt A p.1.t end_ p.1.dt }) b1 e2
    rw [ho _ _ _ _ e1] at a1 a2
    refine ⟨rfl, ?_, ?_⟩ <;> dsimp only <;> nlinarith

theorem quiet_null : (nullObserver : Observer W S T).Quiet calls := fun _ _ _ _ e => by cases e; rfl

theorem constControlled_calls (hst : sc.Takes calls lo hi) (ho : obs.Quiet calls) {q : Q} {x x' : S} {n : ℕ} {start end_ dt : T} {w w' : W}
    (e : integrateConstControlled A sc obs q x start end_ dt w = .ok (x', n) w') :
    calls w + n * lo ≤ calls w' ∧ calls w' ≤ calls w + n * (500 * hi) := by
  obtain ⟨s, w1, e1, e⟩ := bind_ok_inv e
  obtain ⟨_, w2, e2, e⟩ := bind_ok_inv e
  cases e
  have key := (whileM_ok_inv₂ (fun (s : CtrlState S T) v => calls w + s.real * lo ≤ calls v ∧ calls v ≤ calls w + s.real * (500 * hi))
    ?_ ⟨by simp, by simp⟩ e1).1
  · rw [ho _ _ _ _ e2]
    exact key
  · intro s v s' v' ⟨b2, b3⟩ _ eb
    obtain ⟨_, w1, e1, eb⟩ := bind_ok_inv eb
    obtain ⟨r, w2, e2, eb⟩ := bind_ok_inv eb
    cases eb
    obtain ⟨a1, a2⟩ := adaptiveControlled_calls hst quiet_null e2
    rw [ho _ _ _ _ e1] at a1 a2
    refine ⟨?_, ?_⟩ <;> dsimp only <;> nlinarith

/-- the invariant of `integrate_times` -/
def TimesCalls (calls : W → ℕ) (lo hi : ℕ) (w0 : W) (s : TimesState Q S T) (v : W) : Prop :=
  s.fails ≤ 500 ∧ calls w0 + s.steps * lo ≤ calls v ∧ calls v ≤ calls w0 + (501 * s.steps + s.fails) * hi

theorem timesControlledBody_calls (hst : sc.Takes calls lo hi) {w0 : W} {next : T} {s s' : TimesState Q S T} {w w' : W} (hw : TimesCalls calls lo hi w0 s w)
    (e : timesControlledBody A sc next s w = .ok s' w') : TimesCalls calls lo hi w0 s' w' := by
  obtain ⟨b1, b2, b3⟩ := hw
  obtain ⟨r, w1, e1, e⟩ := bind_ok_inv e
  obtain ⟨h1, h2, h3⟩ := hst _ _ _ _ _ _ _ e1
  split at e
  · rename_i hr
    have := h2 hr
    cases e
    refine ⟨by simp, ?_, ?_⟩ <;> dsimp only <;> nlinarith
  · obtain ⟨f, w2, e2, e⟩ := bind_ok_inv e
    unfold failedStepChecker defaultMaxSteps at e2
    split at e2
    · cases e2
    · cases e2
      cases e
      refine ⟨by dsimp only; omega, ?_, ?_⟩ <;> dsimp only <;> nlinarith

theorem timesControlledLoop_calls (hst : sc.Takes calls lo hi) (ho : obs.Quiet calls) (w0 : W) (l : List T) {s : TimesState Q S T} {x' : S} {n : ℕ}
    {w w' : W} (hw : TimesCalls calls lo hi w0 s w) (e : timesControlledLoop A sc obs l s w = .ok (x', n) w') :
    calls w0 + n * lo ≤ calls w' ∧ calls w' ≤ calls w0 + (n + 1) * (501 * hi) := by
  induction l generalizing s w with
  | nil => cases e
  | cons t l ih =>
    cases l with
    | nil =>
      obtain ⟨_, w1, e1, e⟩ := bind_ok_inv e
      cases e
      obtain ⟨b1, b2, b3⟩ := hw
      rw [ho _ _ _ _ e1]
      exact ⟨b2, by nlinarith⟩
    | cons t' l =>
      obtain ⟨_, w1, e1, e⟩ := bind_ok_inv e
      obtain ⟨s', w2, e2, e⟩ := bind_ok_inv e
      refine ih (whileM_ok_inv₂ (TimesCalls calls lo hi w0) (fun _ _ _ _ hI _ eb => timesControlledBody_calls hst hI eb) ?_ e2).1 e
      unfold TimesCalls
      rw [ho _ _ _ _ e1]
      exact hw

end Verif
