import Verif.Spec.Interval
import Verif.Lemmas.Sim
import Verif.Lemmas.Resume
import Mathlib.Tactic.Linarith
import Mathlib.Tactic.NormNum
import Mathlib.Tactic.Ring
import Mathlib.Tactic.Positivity
import Mathlib.Tactic.FieldSimp

/-! # Loops whose bodies agree where they are executed -/

namespace Verif
variable {K V W Q S T α β σ : Type}

theorem bind_congr_ok {m m' : M W α} {f f' : α → M W β} {w : W} (hm : m w = m' w) (hf : ∀ a w', m w = .ok a w' → f a w' = f' a w') :
    (m >>= f) w = (m' >>= f') w := by
  rw [M.bind_apply, M.bind_apply, ← hm]
  cases h : m w with
  | ok a w' => exact hf a w' h
  | err e w' => rfl
  | ub => rfl
  | div => rfl

/-- Two loops whose bodies agree whenever the invariant `I` and the condition hold. -/
theorem whileM_congr₂ {cond : σ → Bool} {body body' : σ → M W σ} (I : σ → W → Prop)
    (hb : ∀ s w, I s w → cond s = true → body s w = body' s w)
    (hI : ∀ s w s' w', I s w → cond s = true → body s w = .ok s' w' → I s' w') {s : σ} {w : W} (h0 : I s w) :
    whileM cond body s w = whileM cond body' s w := by
  rcases whileM_div_or (cond := cond) (body := body) s w with ⟨n, hn⟩ | ⟨hn, hd⟩
  · revert hn
    generalize hr : whileM cond body s w = r
    induction n generalizing s w with
    | zero => intro hn; simp [whileF] at hn
    | succ n ih =>
      intro hn
      simp only [whileF] at hn
      by_cases hc : cond s = true
      · rw [if_pos hc] at hn
        rw [whileM_true hc] at hr ⊢
        have e := hb s w h0 hc
        cases hbe : body s w with
        | ok s' w' =>
          rw [hbe] at hn
          rw [M.bind_ok hbe] at hr
          rw [M.bind_ok (e ▸ hbe)]
          exact ih (hI s w s' w' h0 hc hbe) hr hn
        | err e' w' => rw [M.bind_err hbe] at hr; rw [M.bind_err (e ▸ hbe)]; exact hr.symm
        | ub => rw [M.bind_ub hbe] at hr; rw [M.bind_ub (e ▸ hbe)]; exact hr.symm
        | div => rw [M.bind_div hbe] at hr; rw [M.bind_div (e ▸ hbe)]; exact hr.symm
      · rw [if_neg hc] at hn
        have hc' : cond s = false := by simpa using hc
        rw [whileM_stop hc'] at hr ⊢
        exact hr.symm
  · rw [hd]
    symm
    refine whileM_div (fun s w => I s w ∧ ∀ n, whileF cond body n s w = none) ?_ ⟨h0, hn⟩
    rintro s w ⟨hs, hI'⟩
    have h1 := hI' 1
    by_cases hc : cond s = true
    · refine ⟨hc, ?_⟩
      have e := hb s w hs hc
      cases hbe : body s w with
      | ok s' w' =>
        refine ⟨s', w', e ▸ hbe, hI s w s' w' hs hc hbe, fun n => ?_⟩
        have := hI' (n + 1)
        simpa [whileF, hc, hbe] using this
      | err e w' => simp [whileF, hc, hbe] at h1
      | ub => simp [whileF, hc, hbe] at h1
      | div => simp [whileF, hc, hbe] at h1
    · simp [whileF, hc] at h1

theorem whileM_congr {cond : σ → Bool} {body body' : σ → M W σ} (I : σ → Prop) (hb : ∀ s w, I s → cond s = true → body s w = body' s w)
    (hI : ∀ s w s' w', I s → cond s = true → body s w = .ok s' w' → I s') {s : σ} (h0 : I s) : whileM cond body s = whileM cond body' s := by
  funext w
  exact whileM_congr₂ (fun s _ => I s) hb hI h0

/-- What a loop returns satisfies its invariant. -/
theorem whileM_ok_inv₂ {cond : σ → Bool} {body : σ → M W σ} (I : σ → W → Prop)
    (hI : ∀ s w s' w', I s w → cond s = true → body s w = .ok s' w' → I s' w') {s s' : σ} {w w' : W} (h0 : I s w)
    (h : whileM cond body s w = .ok s' w') : I s' w' ∧ cond s' = false := by
  rcases whileM_div_or (cond := cond) (body := body) s w with ⟨n, hn⟩ | ⟨hn, hd⟩
  · rw [h] at hn
    clear h
    induction n generalizing s w with
    | zero => simp [whileF] at hn
    | succ n ih =>
      simp only [whileF] at hn
      by_cases hc : cond s = true
      · rw [if_pos hc] at hn
        cases hbe : body s w with
        | ok s₁ w₁ => rw [hbe] at hn; exact ih (hI s w s₁ w₁ h0 hc hbe) hn
        | err e' w' => rw [hbe] at hn; cases hn
        | ub => rw [hbe] at hn; cases hn
        | div => rw [hbe] at hn; cases hn
      · rw [if_neg hc] at hn
        cases hn
        exact ⟨h0, by simpa using hc⟩
  · rw [hd] at h; cases h

theorem whileM_ok_inv {cond : σ → Bool} {body : σ → M W σ} (I : σ → Prop)
    (hI : ∀ s w s' w', I s → cond s = true → body s w = .ok s' w' → I s') {s s' : σ} {w w' : W} (h0 : I s)
    (h : whileM cond body s w = .ok s' w') : I s' ∧ cond s' = false := whileM_ok_inv₂ (fun s _ => I s) hI h0 h

theorem bind_ok_inv {m : M W α} {f : α → M W β} {w w' : W} {b : β} (h : (m >>= f) w = .ok b w') :
    ∃ a w₁, m w = .ok a w₁ ∧ f a w₁ = .ok b w' := by
  rw [M.bind_apply] at h
  cases hm : m w with
  | ok a w₁ => rw [hm] at h; exact ⟨a, w₁, rfl, h⟩
  | err e w₁ => rw [hm] at h; cases h
  | ub => rw [hm] at h; cases h
  | div => rw [hm] at h; cases h

theorem callSys_agree {sys sys' : Sys K V W} {I : Set K} (h : ∀ t ∈ I, ∀ x, sys x t = sys' x t) {t : K} (ht : t ∈ I) (src dst : Loc) :
    callSys sys src dst t = callSys sys' src dst t := by
  funext w
  simp only [callSys, h t ht]

section
variable [Field K] [LinearOrder K] [IsStrictOrderedRing K]

theorem node_mem {c t dt : K} (h0 : 0 ≤ c) (h1 : c ≤ 1) : t + c * dt ∈ duringStep t dt := by
  unfold duringStep
  rw [Set.mem_uIcc]
  rcases le_total 0 dt with hd | hd
  · left; constructor <;> nlinarith
  · right; constructor <;> nlinarith

theorem node_mem' {c t dt : K} (h0 : 0 ≤ c) (h1 : c ≤ 1) : t + dt * c ∈ duringStep t dt := by
  rw [mul_comm]; exact node_mem h0 h1

theorem start_mem (t dt : K) : t ∈ duringStep t dt := Set.left_mem_uIcc

theorem end_mem (t dt : K) : t + dt ∈ duringStep t dt := Set.right_mem_uIcc

theorem duringStep_subset {a b t dt : K} (h0 : t ∈ Set.Icc a b) (h1 : t + dt ∈ Set.Icc a b) : duringStep t dt ⊆ Set.Icc a b :=
  Set.uIcc_subset_Icc h0 h1

end

/-! ## Plain steppers -/

section
variable [Field K] [LinearOrder K]

/-- the steps of the two steppers agree inside `I` -/
def StepsAgree (I : Set K) (st st' : BasicStepper Q W S K) : Prop := ∀ q x t dt, duringStep t dt ⊆ I → st.doStep q x t dt = st'.doStep q x t dt

theorem StepsAgree.mono {I J : Set K} {st st' : BasicStepper Q W S K} (h : StepsAgree I st st') (hJ : J ⊆ I) : StepsAgree J st st' :=
  fun q x t dt hs => h q x t dt (hs.trans hJ)

variable [IsStrictOrderedRing K] {eps : K} {st st' : BasicStepper Q W S K} {obs : Observer W S K}

theorem nStepsBasicLoop_agree {t0 dt : K} {N : ℕ} (h : StepsAgree (Set.uIcc t0 (t0 + N * dt)) st st') :
    ∀ (k i : ℕ) (s : NState Q S K), i + k ≤ N → s.time = t0 + i * dt →
      nStepsBasicLoop (TimeArith.exact K eps) st obs t0 dt k i s = nStepsBasicLoop (TimeArith.exact K eps) st' obs t0 dt k i s := by
  intro k
  induction k with
  | zero => intro i s _ _; rfl
  | succ k ih =>
    intro i s hi hs
    simp only [nStepsBasicLoop]
    have hmem : ∀ j : ℕ, j ≤ N → t0 + (j : K) * dt ∈ Set.uIcc t0 (t0 + N * dt) := by
      intro j hj
      have hj' : (j : K) ≤ N := by exact_mod_cast hj
      have hj0 : (0 : K) ≤ j := Nat.cast_nonneg j
      rw [Set.mem_uIcc]
      rcases le_total 0 dt with hd | hd
      · left; constructor <;> nlinarith
      · right; constructor <;> nlinarith
    have e : st.doStep s.q s.x s.time dt = st'.doStep s.q s.x s.time dt := by
      refine h _ _ _ _ ?_
      unfold duringStep
      rw [hs]
      refine Set.uIcc_subset_uIcc (hmem i (by omega)) ?_
      have := hmem (i + 1) (by omega)
      push_cast at this
      rw [add_mul, one_mul, ← add_assoc] at this
      exact this
    rw [e]
    congr 1; funext _; congr 1; funext r
    refine ih (i + 1) _ (by omega) ?_
    simp [TimeArith.exact]

theorem integrateNStepsBasic_agree {t0 dt : K} {n : ℕ} (h : StepsAgree (Set.uIcc t0 (t0 + n * dt)) st st') (q : Q) (x : S) :
    integrateNStepsBasic (TimeArith.exact K eps) st obs q x t0 dt n = integrateNStepsBasic (TimeArith.exact K eps) st' obs q x t0 dt n := by
  unfold integrateNStepsBasic
  rw [nStepsBasicLoop_agree h n 0 ⟨q, x, t0⟩ (by omega) (by simp)]

theorem integrateConstBasic_agree {t0 t1 dt : K} (heps : 0 ≤ eps) (h : StepsAgree (during eps dt t0 t1) st st') (q : Q) (x : S) :
    integrateConstBasic (TimeArith.exact K eps) st obs q x t0 t1 dt = integrateConstBasic (TimeArith.exact K eps) st' obs q x t0 t1 dt := by
  unfold integrateConstBasic
  congr 1
  refine whileM_congr (fun s : ConstState Q S K => s.time = t0 + s.step * dt) ?_ ?_ (by simp)
  · intro s w hs hc
    have e : st.doStep s.q s.x s.time dt = st'.doStep s.q s.x s.time dt := by
      refine h _ _ _ _ ?_
      have hj0 : (0 : K) ≤ s.step := Nat.cast_nonneg _
      simp only [TimeArith.lessEqWithSign, TimeArith.exact] at hc
      unfold during
      by_cases hd : 0 < dt
      · simp only [decide_eq_true hd, if_true, decide_eq_true_eq] at hc
        rw [if_pos hd]
        exact duringStep_subset ⟨by rw [hs]; nlinarith, by linarith⟩ ⟨by rw [hs]; nlinarith, by linarith⟩
      · simp only [decide_eq_false hd, Bool.false_eq_true, if_false, decide_eq_true_eq] at hc
        rw [if_neg hd]
        exact duringStep_subset ⟨by linarith, by rw [hs]; nlinarith⟩ ⟨by linarith, by rw [hs]; nlinarith⟩
    rw [e]
  · intro s w s' w' hs hc hb
    obtain ⟨_, w₁, -, hb⟩ := bind_ok_inv hb
    obtain ⟨r, w₂, -, hb⟩ := bind_ok_inv hb
    cases hb
    simp [TimeArith.exact]

theorem integrateAdaptiveBasic_agree {t0 t1 dt : K} (heps : 0 ≤ eps) (h : StepsAgree (during eps dt t0 t1) st st') (q : Q) (x : S) :
    integrateAdaptiveBasic (TimeArith.exact K eps) st obs q x t0 t1 dt = integrateAdaptiveBasic (TimeArith.exact K eps) st' obs q x t0 t1 dt := by
  unfold integrateAdaptiveBasic
  rw [integrateConstBasic_agree heps h]
  congr 1; funext r
  dsimp only
  split
  · rename_i hc
    have e : ∀ x, st.doStep q x ((TimeArith.exact K eps).add t0 ((TimeArith.exact K eps).nmul r.2 dt))
        ((TimeArith.exact K eps).sub t1 ((TimeArith.exact K eps).add t0 ((TimeArith.exact K eps).nmul r.2 dt))) =
        st'.doStep q x ((TimeArith.exact K eps).add t0 ((TimeArith.exact K eps).nmul r.2 dt))
        ((TimeArith.exact K eps).sub t1 ((TimeArith.exact K eps).add t0 ((TimeArith.exact K eps).nmul r.2 dt))) := by
      intro x
      refine h _ _ _ _ ?_
      have hj0 : (0 : K) ≤ r.2 := Nat.cast_nonneg _
      simp only [TimeArith.lessWithSign, TimeArith.exact] at hc ⊢
      unfold during
      by_cases hd : 0 < dt
      · simp only [decide_eq_true hd, if_true, decide_eq_true_eq] at hc
        rw [if_pos hd]
        exact duringStep_subset ⟨by nlinarith, by linarith⟩ ⟨by nlinarith, by linarith⟩
      · simp only [decide_eq_false hd, Bool.false_eq_true, if_false, decide_eq_true_eq] at hc
        rw [if_neg hd]
        exact duringStep_subset ⟨by linarith, by nlinarith⟩ ⟨by linarith, by nlinarith⟩
    rw [e]
  · rfl

theorem timesBasicInner_agree {dt t next : K} {I : Set K} (heps : 0 ≤ eps) (hI : Set.uIcc t next ⊆ I) (h : StepsAgree I st st')
    (s : TimesState Q S K) (hs : s.time = t) (hdir : 0 < s.dt ↔ 0 < dt) :
    timesBasicInner (TimeArith.exact K eps) st dt next s = timesBasicInner (TimeArith.exact K eps) st' dt next s := by
  unfold timesBasicInner
  have key : ∀ s : TimesState Q S K, s.time ∈ Set.uIcc t next → (0 < s.dt ↔ 0 < dt) →
      (TimeArith.exact K eps).lessWithSign s.time next s.dt = true →
      s.time + (TimeArith.exact K eps).minAbs dt (next - s.time) ∈ Set.uIcc t next ∧
        (0 < (TimeArith.exact K eps).minAbs dt (next - s.time) ↔ 0 < dt) := by
    intro s hm hd hc
    simp only [TimeArith.lessWithSign, TimeArith.exact, TimeArith.minAbs, TimeArith.stdMin, TimeArith.stdMax] at hc ⊢
    rw [Set.mem_uIcc] at hm ⊢
    by_cases hdt : 0 < dt
    · simp only [decide_eq_true hdt, decide_eq_true (hd.2 hdt), if_true, decide_eq_true_eq] at hc ⊢
      split
      · refine ⟨?_, iff_of_true (by linarith) hdt⟩
        rcases hm with hm | hm
        · left; constructor <;> linarith [hm.1, hm.2]
        · linarith [hm.1, hm.2]
      · refine ⟨?_, iff_of_true (by linarith) hdt⟩
        rcases hm with hm | hm
        · left; constructor <;> linarith [hm.1, hm.2]
        · linarith [hm.1, hm.2]
    · simp only [decide_eq_false hdt, decide_eq_false (fun h => hdt (hd.1 h)), Bool.false_eq_true, if_false, decide_eq_true_eq] at hc ⊢
      split
      · refine ⟨?_, iff_of_false (by linarith) hdt⟩
        rcases hm with hm | hm
        · linarith [hm.1, hm.2]
        · right; constructor <;> linarith [hm.1, hm.2]
      · refine ⟨?_, iff_of_false (by linarith) hdt⟩
        rcases hm with hm | hm
        · linarith [hm.1, hm.2]
        · right; constructor <;> linarith [hm.1, hm.2]
  refine whileM_congr (fun s : TimesState Q S K => s.time ∈ Set.uIcc t next ∧ (0 < s.dt ↔ 0 < dt)) ?_ ?_ ⟨hs ▸ Set.left_mem_uIcc, hdir⟩
  · rintro s w ⟨hm, hd⟩ hc
    have k := key s hm hd hc
    have e := h s.q s.x s.time ((TimeArith.exact K eps).minAbs dt (next - s.time)) ((Set.uIcc_subset_uIcc hm k.1).trans hI)
    dsimp only
    rw [show (TimeArith.exact K eps).sub next s.time = next - s.time from rfl, e]
  · rintro s w s' w' ⟨hm, hd⟩ hc hb
    obtain ⟨r, w₂, -, hb⟩ := bind_ok_inv hb
    cases hb
    exact key s hm hd hc

theorem timesBasicInner_dir {dt next : K} (heps : 0 ≤ eps) (s s' : TimesState Q S K) (w w' : W) (hdir : 0 < s.dt ↔ 0 < dt)
    (h : timesBasicInner (TimeArith.exact K eps) st dt next s w = .ok s' w') : 0 < s'.dt ↔ 0 < dt := by
  refine (whileM_ok_inv (fun s : TimesState Q S K => (0 < s.dt ↔ 0 < dt)) ?_ hdir h).1
  rintro s w s' w' hd hc hb
  obtain ⟨r, w₂, -, hb⟩ := bind_ok_inv hb
  cases hb
  simp only [TimeArith.lessWithSign, TimeArith.exact, TimeArith.minAbs, TimeArith.stdMin, TimeArith.stdMax] at hc ⊢
  by_cases hdt : 0 < dt
  · simp only [decide_eq_true hdt, decide_eq_true (hd.2 hdt), if_true, decide_eq_true_eq] at hc ⊢
    split <;> exact iff_of_true (by linarith) hdt
  · simp only [decide_eq_false hdt, decide_eq_false (fun h => hdt (hd.1 h)), Bool.false_eq_true, if_false, decide_eq_true_eq] at hc ⊢
    split <;> exact iff_of_false (by linarith) hdt

theorem uIcc_subset_duringTimes {times : List K} {a b : K} (ha : a ∈ times) (hb : b ∈ times) : Set.uIcc a b ⊆ duringTimes times := by
  intro τ hτ
  rw [Set.mem_uIcc] at hτ
  rcases hτ with hτ | hτ
  · exact ⟨a, ha, b, hb, hτ⟩
  · exact ⟨b, hb, a, ha, hτ⟩

theorem timesBasicLoop_agree {dt : K} (heps : 0 ≤ eps) {all : List K} (h : StepsAgree (duringTimes all) st st') :
    ∀ (times : List K), (∀ t ∈ times, t ∈ all) → ∀ (s : TimesState Q S K), (0 < s.dt ↔ 0 < dt) →
      timesBasicLoop (TimeArith.exact K eps) st obs dt times s = timesBasicLoop (TimeArith.exact K eps) st' obs dt times s := by
  intro times
  induction times with
  | nil => intro _ _ _; rfl
  | cons t times ih =>
    intro hall s hd
    cases times with
    | nil => rfl
    | cons next rest =>
      simp only [timesBasicLoop]
      congr 1; funext _
      rw [timesBasicInner_agree (t := t) heps (uIcc_subset_duringTimes (hall t (by simp)) (hall next (by simp))) h _ rfl (by exact hd)]
      funext w
      refine bind_congr_ok rfl fun s' w' hs' => ?_
      rw [ih (fun t ht => hall t (by simp [List.mem_cons.1 ht])) s' (timesBasicInner_dir heps _ _ _ _ (by exact hd) hs')]

theorem integrateTimesBasic_agree {dt : K} (heps : 0 ≤ eps) {times : List K} (h : StepsAgree (duringTimes times) st st') (q : Q) (x : S) :
    integrateTimesBasic (TimeArith.exact K eps) st obs q x times dt = integrateTimesBasic (TimeArith.exact K eps) st' obs q x times dt :=
  timesBasicLoop_agree heps h times (fun _ h => h) _ Iff.rfl

end
end Verif
