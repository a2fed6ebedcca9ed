import Verif.Lemmas.IntervalControlled

/-! # Dense output steppers whose steps agree -/

namespace Verif
variable {K V W Q S α β σ : Type}

section
variable [Field K] [LinearOrder K]

/-- the steps of the two dense output steppers in the direction of `dt` agree inside `I`, and they are the same otherwise -/
structure DenseAgree (dt : K) (I : Set K) (st st' : DenseStepper Q W S K) : Prop where
  init : st.init = st'.init
  calcState : st.calcState = st'.calcState
  curState : st.curState = st'.curState
  curTime : st.curTime = st'.curTime
  curDt : st.curDt = st'.curDt
  doStep : ∀ q, SameDir dt (st.curDt q) → duringStep (st.curTime q) (st.curDt q) ⊆ I → st.doStep q = st'.doStep q

/-- time and step size of a dense output stepper, for steps in the direction of `dt` -/
structure DenseForward (dt : K) (st : DenseStepper Q W S K) : Prop where
  init : ∀ q x t d w q' w', st.init q x t d w = .ok q' w' → st.curTime q' = t ∧ st.curDt q' = d
  step : ∀ q w q' w', st.doStep q w = .ok q' w' → SameDir dt (st.curDt q) →
    SameDir dt (st.curDt q') ∧ st.curTime q' ∈ duringStep (st.curTime q) (st.curDt q)

variable [IsStrictOrderedRing K] {eps : K} {st st' : DenseStepper Q W S K} {obs : Observer W S K}

theorem DenseAgree.mono {dt : K} {I J : Set K} (h : DenseAgree dt I st st') (hJ : J ⊆ I) : DenseAgree dt J st st' :=
  ⟨h.init, h.calcState, h.curState, h.curTime, h.curDt, fun q hd hq => h.doStep q hd (hq.trans hJ)⟩

/-- a step that does not go beyond the end -/
theorem lessEq_inside {dt t0 t1 t d : K} (hd : SameDir dt d) (ht : t ∈ during eps dt t0 t1)
    (hc : (TimeArith.exact K eps).lessEqWithSign (t + d) t1 d = true) : duringStep t d ⊆ during eps dt t0 t1 := by
  simp only [TimeArith.lessEqWithSign, TimeArith.exact] at hc
  unfold during at ht ⊢
  rcases hd with ⟨h1, h2⟩ | ⟨h1, h2⟩
  · simp only [decide_eq_true h2, if_true, decide_eq_true_eq] at hc
    rw [if_pos h1] at ht ⊢
    exact duringStep_subset ht ⟨by linarith [ht.1], by linarith⟩
  · simp only [decide_eq_false (not_lt.2 h2.le), Bool.false_eq_true, if_false, decide_eq_true_eq] at hc
    rw [if_neg (not_lt.2 h1.le)] at ht ⊢
    exact duringStep_subset ht ⟨by linarith, by linarith [ht.2]⟩

theorem less_mem {dt t0 t1 t d : K} (heps : 0 ≤ eps) (hd : SameDir dt d) (h : t = t0 ∨ t ∈ during eps dt t0 t1)
    (hc : (TimeArith.exact K eps).lessWithSign t t1 d = true) : t ∈ during eps dt t0 t1 := by
  rcases h with h | h
  · simp only [TimeArith.lessWithSign, TimeArith.exact] at hc
    unfold during
    rcases hd with ⟨h1, h2⟩ | ⟨h1, h2⟩
    · simp only [decide_eq_true h2, if_true, decide_eq_true_eq] at hc
      rw [if_pos h1]
      exact ⟨h.ge, by linarith⟩
    · simp only [decide_eq_false (not_lt.2 h2.le), Bool.false_eq_true, if_false, decide_eq_true_eq] at hc
      rw [if_neg (not_lt.2 h1.le)]
      exact ⟨by linarith, h.le⟩
  · exact h

/-- the last step to the end -/
theorem less_last {dt t0 t1 t d : K} (heps : 0 ≤ eps) (hd : SameDir dt d) (h : t ∈ during eps dt t0 t1)
    (hc : (TimeArith.exact K eps).lessWithSign t t1 d = true) : SameDir dt (t1 - t) ∧ duringStep t (t1 - t) ⊆ during eps dt t0 t1 := by
  simp only [TimeArith.lessWithSign, TimeArith.exact] at hc
  unfold during at h ⊢
  rcases hd with ⟨h1, h2⟩ | ⟨h1, h2⟩
  · simp only [decide_eq_true h2, if_true, decide_eq_true_eq] at hc
    rw [if_pos h1] at h ⊢
    exact ⟨Or.inl ⟨h1, by linarith⟩, duringStep_subset h ⟨by linarith [h.1], by linarith⟩⟩
  · simp only [decide_eq_false (not_lt.2 h2.le), Bool.false_eq_true, if_false, decide_eq_true_eq] at hc
    rw [if_neg (not_lt.2 h1.le)] at h ⊢
    exact ⟨Or.inr ⟨h1, by linarith⟩, duringStep_subset h ⟨by linarith, by linarith [h.2]⟩⟩

/-! ## `integrate_adaptive` -/

/-- the invariant of the outer loop -/
def OuterInv (st : DenseStepper Q W S K) (eps dt t0 t1 : K) (p : Q × ℕ) : Prop :=
  (st.curTime p.1 = t0 ∨ st.curTime p.1 ∈ during eps dt t0 t1) ∧ (SameDir dt (st.curDt p.1) ∨ |t1 - st.curTime p.1| ≤ eps)

/-- the invariant of the inner loop -/
def InnerInv (st : DenseStepper Q W S K) (eps dt t0 t1 : K) (p : Q × ℕ) : Prop :=
  st.curTime p.1 ∈ during eps dt t0 t1 ∧ SameDir dt (st.curDt p.1)

theorem OuterInv.inner {dt t0 t1 : K} (heps : 0 ≤ eps) {p : Q × ℕ} (hp : OuterInv st eps dt t0 t1 p)
    (hc : (TimeArith.exact K eps).lessWithSign (st.curTime p.1) t1 (st.curDt p.1) = true) : InnerInv st eps dt t0 t1 p := by
  have hd : SameDir dt (st.curDt p.1) := by
    rcases hp.2 with h | h
    · exact h
    · exfalso
      rw [abs_le] at h
      simp only [TimeArith.lessWithSign, TimeArith.exact] at hc
      by_cases h0 : 0 < st.curDt p.1
      · simp only [decide_eq_true h0, if_true, decide_eq_true_eq] at hc; linarith
      · simp only [decide_eq_false h0, Bool.false_eq_true, if_false, decide_eq_true_eq] at hc; linarith
  exact ⟨less_mem heps hd hp.1 hc, hd⟩

theorem InnerInv.body {dt t0 t1 : K} (hf : DenseForward dt st) {p p' : Q × ℕ} {w w' : W} (hp : InnerInv st eps dt t0 t1 p)
    (hc : (TimeArith.exact K eps).lessEqWithSign ((TimeArith.exact K eps).add (st.curTime p.1) (st.curDt p.1)) t1 (st.curDt p.1) = true)
    (hb : (do obs (st.curState p.1) (st.curTime p.1)
              let q ← st.doStep p.1
              return (q, p.2 + 1) : M W (Q × ℕ)) w = .ok p' w') : InnerInv st eps dt t0 t1 p' := by
  obtain ⟨_, w₁, -, hb⟩ := bind_ok_inv hb
  obtain ⟨q, w₂, h2, hb⟩ := bind_ok_inv hb
  cases hb
  obtain ⟨h3, h4⟩ := hf.step _ _ _ _ h2 hp.2
  exact ⟨lessEq_inside hp.2 hp.1 hc h4, h3⟩

theorem innerLoop_agree {dt t0 t1 : K} (h : DenseAgree dt (during eps dt t0 t1) st st') (hf : DenseForward dt st) (p : Q × ℕ)
    (hp : InnerInv st eps dt t0 t1 p) :
    whileM (fun p : Q × ℕ => (TimeArith.exact K eps).lessEqWithSign ((TimeArith.exact K eps).add (st.curTime p.1) (st.curDt p.1)) t1 (st.curDt p.1))
      (fun p => do
        obs (st.curState p.1) (st.curTime p.1)
        let q ← st.doStep p.1
        return (q, p.2 + 1)) p =
    whileM (fun p : Q × ℕ => (TimeArith.exact K eps).lessEqWithSign ((TimeArith.exact K eps).add (st.curTime p.1) (st.curDt p.1)) t1 (st.curDt p.1))
      (fun p => do
        obs (st.curState p.1) (st.curTime p.1)
        let q ← st'.doStep p.1
        return (q, p.2 + 1)) p := by
  refine whileM_congr (InnerInv st eps dt t0 t1) ?_ (fun p w p' w' hp hc hb => hp.body hf hc hb) hp
  intro p w hp hc
  rw [h.doStep p.1 hp.2 (lessEq_inside hp.2 hp.1 hc)]

theorem integrateAdaptiveDense_agree {dt t0 t1 : K} (heps : 0 ≤ eps) (h : DenseAgree dt (during eps dt t0 t1) st st') (hf : DenseForward dt st)
    (hd0 : dt ≠ 0) (q : Q) (x : S) :
    integrateAdaptiveDense (TimeArith.exact K eps) st obs q x t0 t1 dt = integrateAdaptiveDense (TimeArith.exact K eps) st' obs q x t0 t1 dt := by
  have hdd : SameDir dt dt := by rcases lt_or_gt_of_ne hd0 with h | h; exacts [Or.inr ⟨h, h⟩, Or.inl ⟨h, h⟩]
  unfold integrateAdaptiveDense
  rw [← h.init, ← h.curState, ← h.curTime, ← h.curDt]
  funext w
  refine bind_congr_ok rfl fun q₁ w₁ h1 => ?_
  obtain ⟨e1, e2⟩ := hf.init _ _ _ _ _ _ _ h1
  refine bind_congr_ok (congrFun (whileM_congr (OuterInv st eps dt t0 t1) ?_ ?_ ⟨Or.inl e1, Or.inl (by rw [e2]; exact hdd)⟩) w₁) fun p w' _ => rfl
  · intro p w hp hc
    rw [innerLoop_agree h hf p (hp.inner heps hc)]
  · intro p w p' w' hp hc hb
    obtain ⟨p₁, w₂, h2, hb⟩ := bind_ok_inv hb
    obtain ⟨q₃, w₃, h3, hb⟩ := bind_ok_inv hb
    cases hb
    obtain ⟨e3, e4⟩ := hf.init _ _ _ _ _ _ _ h3
    obtain ⟨h4, -⟩ := whileM_ok_inv (InnerInv st eps dt t0 t1) (fun p w p' w' hp hc hb => hp.body hf hc hb) (hp.inner heps hc) h2
    have e3' : st.curTime q₃ = st.curTime p₁.1 := e3
    have e4' : st.curDt q₃ = t1 - st.curTime p₁.1 := e4
    refine ⟨Or.inr (by rw [e3']; exact h4.1), ?_⟩
    change SameDir dt (st.curDt q₃) ∨ |t1 - st.curTime q₃| ≤ eps
    rw [e4', e3']
    have hm := h4.1
    unfold during at hm
    rcases le_or_gt |t1 - st.curTime p₁.1| eps with hle | hgt
    · exact Or.inr hle
    · left
      rcases lt_or_gt_of_ne hd0 with hn | hp
      · rw [if_neg (not_lt.2 hn.le)] at hm
        rcases lt_abs.1 hgt with hh | hh
        · linarith [hm.1]
        · exact Or.inr ⟨hn, by linarith⟩
      · rw [if_pos hp] at hm
        rcases lt_abs.1 hgt with hh | hh
        · exact Or.inl ⟨hp, by linarith⟩
        · linarith [hm.2]

/-! ## `integrate_times` -/

/-- the invariant of the loops -/
def DTimesInv (st : DenseStepper Q W S K) (eps dt t0 last : K) (s : DenseTimesState Q S K) : Prop :=
  st.curTime s.q ∈ during eps dt t0 last ∧ SameDir dt (st.curDt s.q) ∧ ((∀ τ ∈ s.rest, if 0 < dt then τ ≤ last else last ≤ τ))

theorem DTimesInv.observe {dt t0 last : K} {s s' : DenseTimesState Q S K} {w w' : W} (hs : DTimesInv st eps dt t0 last s)
    (hb : denseTimesObserve st obs s w = .ok s' w') : DTimesInv st eps dt t0 last s' := by
  obtain ⟨h1, h2, h3⟩ := hs
  unfold denseTimesObserve at hb
  cases e : s.rest with
  | nil => rw [e] at hb; cases hb
  | cons τ rest =>
    rw [e] at hb
    obtain ⟨y, w₁, -, hb⟩ := bind_ok_inv hb
    obtain ⟨_, w₂, -, hb⟩ := bind_ok_inv hb
    cases hb
    exact ⟨h1, h2, fun τ' hτ' => h3 τ' (by rw [e]; exact List.mem_cons_of_mem _ hτ')⟩

/-- there is a time left that has not been reached -/
theorem DTimesInv.less {dt t0 last : K} {s : DenseTimesState Q S K} (hs : DTimesInv st eps dt t0 last s) (hne : s.rest.isEmpty = false)
    (hl : headLessEq (TimeArith.exact K eps) s.rest (st.curTime s.q) (st.curDt s.q) = false) :
    (TimeArith.exact K eps).lessWithSign (st.curTime s.q) last (st.curDt s.q) = true := by
  obtain ⟨h1, h2, h3⟩ := hs
  cases e : s.rest with
  | nil => rw [e] at hne; simp at hne
  | cons τ rest =>
    rw [e] at hl
    have h4 := h3 τ (by rw [e]; simp)
    simp only [headLessEq, TimeArith.lessEqWithSign, TimeArith.lessWithSign, TimeArith.exact] at hl ⊢
    rcases h2 with ⟨h5, h6⟩ | ⟨h5, h6⟩
    · simp only [decide_eq_true h6, if_true, decide_eq_false_iff_not, not_le, decide_eq_true_eq] at hl ⊢
      rw [if_pos h5] at h4
      linarith
    · simp only [decide_eq_false (not_lt.2 h6.le), Bool.false_eq_true, if_false, decide_eq_false_iff_not, not_le, decide_eq_true_eq] at hl ⊢
      rw [if_neg (not_lt.2 h5.le)] at h4
      linarith

theorem denseTimesBody_inv {dt t0 last : K} (heps : 0 ≤ eps) (hf : DenseForward dt st) {s s' : DenseTimesState Q S K} {w w' : W}
    (hs : DTimesInv st eps dt t0 last s) (hb : denseTimesBody (TimeArith.exact K eps) st obs last s w = .ok s' w') :
    DTimesInv st eps dt t0 last s' := by
  obtain ⟨s₁, w₁, h1, hb⟩ := bind_ok_inv hb
  obtain ⟨i1, i2⟩ := whileM_ok_inv (DTimesInv st eps dt t0 last) (fun s w s' w' hs _ hb => hs.observe hb) hs h1
  split at hb
  · rename_i hc
    obtain ⟨q, w₂, h2, hb⟩ := bind_ok_inv hb
    cases hb
    obtain ⟨h3, h4⟩ := hf.step _ _ _ _ h2 i1.2.1
    exact ⟨lessEq_inside i1.2.1 i1.1 hc h4, h3, i1.2.2⟩
  · split at hb
    · rename_i hne
      obtain ⟨q, w₂, h2, hb⟩ := bind_ok_inv hb
      obtain ⟨q', w₃, h3, hb⟩ := bind_ok_inv hb
      cases hb
      obtain ⟨e1, e2⟩ := hf.init _ _ _ _ _ _ _ h2
      have hl := less_last heps i1.2.1 i1.1 (i1.less (by simpa using hne) i2)
      obtain ⟨h4, h5⟩ := hf.step _ _ _ _ h3 (by rw [e2]; exact hl.1)
      rw [e1, e2] at h5
      exact ⟨hl.2 h5, h4, i1.2.2⟩
    · cases hb
      exact i1

theorem denseTimesBody_agree {dt t0 last : K} (heps : 0 ≤ eps) (h : DenseAgree dt (during eps dt t0 last) st st') (hf : DenseForward dt st)
    (s : DenseTimesState Q S K) (hs : DTimesInv st eps dt t0 last s) :
    denseTimesBody (TimeArith.exact K eps) st obs last s = denseTimesBody (TimeArith.exact K eps) st' obs last s := by
  have eo : ∀ s, denseTimesObserve st obs s = denseTimesObserve st' obs s := by
    intro s; unfold denseTimesObserve; rw [h.calcState]
  unfold denseTimesBody
  rw [← h.init, ← h.curState, ← h.curTime, ← h.curDt, ← funext eo]
  funext w
  refine bind_congr_ok rfl fun s₁ w₁ h1 => ?_
  obtain ⟨i1, i2⟩ := whileM_ok_inv (DTimesInv st eps dt t0 last) (fun s w s' w' hs _ hb => hs.observe hb) hs h1
  split
  · rename_i hc
    rw [h.doStep s₁.q i1.2.1 (lessEq_inside i1.2.1 i1.1 hc)]
  · split
    · rename_i hne
      refine bind_congr_ok rfl fun q w₂ h2 => ?_
      obtain ⟨e1, e2⟩ := hf.init _ _ _ _ _ _ _ h2
      have hl := less_last heps i1.2.1 i1.1 (i1.less (by simpa using hne) i2)
      rw [h.doStep q (by rw [e2]; exact hl.1) (by rw [e1, e2]; exact hl.2)]
    · rfl

theorem integrateTimesDense_agree {dt t0 : K} {times : List K} (heps : 0 ≤ eps) (hm : MonotoneTimes dt (t0 :: times))
    (h : DenseAgree dt (during eps dt t0 (times.getLastD t0)) st st') (hf : DenseForward dt st) (hd0 : dt ≠ 0) (q : Q) (x : S) :
    integrateTimesDense (TimeArith.exact K eps) st obs q x (t0 :: times) dt = integrateTimesDense (TimeArith.exact K eps) st' obs q x (t0 :: times) dt := by
  have hdd : SameDir dt dt := by rcases lt_or_gt_of_ne hd0 with h | h; exacts [Or.inr ⟨h, h⟩, Or.inl ⟨h, h⟩]
  unfold MonotoneTimes at hm
  rw [List.pairwise_cons] at hm
  have hlast : ∀ (l : List K) (a : K), (∀ b ∈ l, if 0 < dt then a ≤ b else b ≤ a) → l.Pairwise (fun a b => if 0 < dt then a ≤ b else b ≤ a) →
      (if 0 < dt then a ≤ l.getLastD a else l.getLastD a ≤ a) ∧ ∀ τ ∈ l, if 0 < dt then τ ≤ l.getLastD a else l.getLastD a ≤ τ := by
    intro l
    induction l with
    | nil => intro a _ _; simp
    | cons b l ih =>
      intro a ha hl
      rw [List.pairwise_cons] at hl
      obtain ⟨i1, i2⟩ := ih b hl.1 hl.2
      have hab := ha b (by simp)
      rw [List.getLastD_cons]
      constructor
      · split_ifs at * <;> linarith
      · intro τ hτ
        rcases List.mem_cons.1 hτ with rfl | hτ
        · exact i1
        · exact i2 τ hτ
  obtain ⟨l1, l2⟩ := hlast times t0 hm.1 hm.2
  unfold integrateTimesDense
  dsimp only
  rw [← h.init]
  funext w
  refine bind_congr_ok rfl fun q₁ w₁ h1 => ?_
  obtain ⟨e1, e2⟩ := hf.init _ _ _ _ _ _ _ h1
  have inv : DTimesInv st eps dt t0 (times.getLastD t0) ⟨q₁, x, times, 0⟩ := by
    refine ⟨?_, by rw [e2]; exact hdd, l2⟩
    rw [e1]
    unfold during
    split_ifs at * with hp
    · exact ⟨le_rfl, by linarith⟩
    · exact ⟨by linarith, le_rfl⟩
  refine bind_congr_ok rfl fun _ w₂ _ => ?_
  refine bind_congr_ok (congrFun (whileM_congr (DTimesInv st eps dt t0 (times.getLastD t0)) ?_ ?_ inv) w₂) fun p w' _ => rfl
  · intro s w hs _
    rw [denseTimesBody_agree heps h hf s hs]
  · intro s w s' w' hs _ hb
    exact denseTimesBody_inv heps hf hs hb

/-! ## `integrate_n_steps` -/

/-- the invariant of the loops: so far the end has not been exceeded at all -/
def DNInv (st : DenseStepper Q W S K) (eps dt t0 t1 : K) (s : DenseState Q S K) : Prop :=
  st.curTime s.q ∈ during eps dt t0 t1 ∧ SameDir dt (st.curDt s.q)

theorem integrateNStepsDense_agree {dt t0 : K} {n : ℕ} (heps : 0 ≤ eps) (h : DenseAgree dt (during eps dt t0 (t0 + n * dt)) st st')
    (hf : DenseForward dt st) (hd0 : dt ≠ 0) (q : Q) (x : S) :
    integrateNStepsDense (TimeArith.exact K eps) st obs q x t0 dt n = integrateNStepsDense (TimeArith.exact K eps) st' obs q x t0 dt n := by
  have hdd : SameDir dt dt := by rcases lt_or_gt_of_ne hd0 with h | h; exacts [Or.inr ⟨h, h⟩, Or.inl ⟨h, h⟩]
  have hn0 : (0 : K) ≤ n := Nat.cast_nonneg n
  have sub0 : during 0 dt t0 (t0 + n * dt) ⊆ during eps dt t0 (t0 + n * dt) := by
    unfold during
    split <;> exact Set.Icc_subset_Icc (by linarith) (by linarith)
  -- the steps of the first loop
  have first : ∀ {t d : K}, SameDir dt d → t ∈ during 0 dt t0 (t0 + n * dt) →
      (TimeArith.exact K eps).lessWithSign (t + d) (t0 + n * dt) d = true → duringStep t d ⊆ during 0 dt t0 (t0 + n * dt) := by
    intro t d hd ht hc
    refine lessEq_inside hd ht ?_
    simp only [TimeArith.lessWithSign, TimeArith.lessEqWithSign, TimeArith.exact] at hc ⊢
    by_cases h0 : 0 < d
    · simp only [decide_eq_true h0, if_true, decide_eq_true_eq] at hc ⊢; linarith
    · simp only [decide_eq_false h0, Bool.false_eq_true, if_false, decide_eq_true_eq] at hc ⊢; linarith
  have second : ∀ {t d : K}, SameDir dt d → t ∈ during 0 dt t0 (t0 + n * dt) →
      (TimeArith.exact K eps).lessWithSign t (t0 + n * dt) d = true →
      SameDir dt (t0 + n * dt - t) ∧ duringStep t (t0 + n * dt - t) ⊆ during 0 dt t0 (t0 + n * dt) := by
    intro t d hd ht hc
    refine less_last (eps := 0) le_rfl hd ht ?_
    simp only [TimeArith.lessWithSign, TimeArith.exact] at hc ⊢
    by_cases h0 : 0 < d
    · simp only [decide_eq_true h0, if_true, decide_eq_true_eq] at hc ⊢; linarith
    · simp only [decide_eq_false h0, Bool.false_eq_true, if_false, decide_eq_true_eq] at hc ⊢; linarith
  unfold integrateNStepsDense
  rw [← h.init, ← h.curState, ← h.curTime, ← h.curDt, ← h.calcState]
  dsimp only
  funext w
  refine bind_congr_ok rfl fun q₁ w₁ h1 => ?_
  obtain ⟨e1, e2⟩ := hf.init _ _ _ _ _ _ _ h1
  have inv : DNInv st 0 dt t0 (t0 + n * dt) ⟨q₁, x, t0, 0, 0⟩ := by
    refine ⟨?_, by rw [e2]; exact hdd⟩
    rw [e1]
    unfold during
    split
    · exact ⟨le_rfl, by nlinarith⟩
    · exact ⟨by nlinarith [not_lt.1 ‹_›], le_rfl⟩
  -- the observations
  have obsInv : ∀ {s s' : DenseState Q S K} {w w' : W}, DNInv st 0 dt t0 (t0 + n * dt) s →
      whileM (fun s : DenseState Q S K => (TimeArith.exact K eps).lessWithSign s.time (st.curTime s.q) (st.curDt s.q))
        (fun s => do
          let x ← st.calcState s.q s.time
          obs x s.time
          return { s with x := x, step := s.step + 1, time := (TimeArith.exact K eps).add t0 ((TimeArith.exact K eps).nmul (s.step + 1) dt) })
        s w = .ok s' w' → DNInv st 0 dt t0 (t0 + n * dt) s' := by
    intro s s' w w' hs hw
    refine (whileM_ok_inv (DNInv st 0 dt t0 (t0 + n * dt)) ?_ hs hw).1
    intro s w s' w' hs _ hb
    obtain ⟨y, w₂, -, hb⟩ := bind_ok_inv hb
    obtain ⟨_, w₃, -, hb⟩ := bind_ok_inv hb
    cases hb
    exact hs
  have hbody : ∀ {s s' : DenseState Q S K} {w w' : W}, DNInv st 0 dt t0 (t0 + n * dt) s →
      (do
        let s ← whileM
          (fun s : DenseState Q S K => (TimeArith.exact K eps).lessWithSign s.time (st.curTime s.q) (st.curDt s.q))
          (fun s => do
            let x ← st.calcState s.q s.time
            obs x s.time
            return { s with x := x, step := s.step + 1, time := (TimeArith.exact K eps).add t0 ((TimeArith.exact K eps).nmul (s.step + 1) dt) })
          s
        if (TimeArith.exact K eps).lessWithSign ((TimeArith.exact K eps).add (st.curTime s.q) (st.curDt s.q)) (t0 + n * dt) (st.curDt s.q) then do
          let q ← st.doStep s.q
          return { s with q := q }
        else if (TimeArith.exact K eps).lessWithSign (st.curTime s.q) (t0 + n * dt) (st.curDt s.q) then do
          let q ← st.init s.q (st.curState s.q) (st.curTime s.q) ((TimeArith.exact K eps).sub (t0 + n * dt) (st.curTime s.q))
          let q ← st.doStep q
          return { s with q := q }
        else return s : M W (DenseState Q S K)) w = .ok s' w' → DNInv st 0 dt t0 (t0 + n * dt) s' := by
    intro s s' w w' hs hb
    obtain ⟨s₁, w₁, h1, hb⟩ := bind_ok_inv hb
    have i1 := obsInv hs h1
    split at hb
    · rename_i hc
      obtain ⟨q, w₂, h2, hb⟩ := bind_ok_inv hb
      cases hb
      obtain ⟨h3, h4⟩ := hf.step _ _ _ _ h2 i1.2
      exact ⟨first i1.2 i1.1 hc h4, h3⟩
    · split at hb
      · rename_i hc
        obtain ⟨q, w₂, h2, hb⟩ := bind_ok_inv hb
        obtain ⟨q', w₃, h3, hb⟩ := bind_ok_inv hb
        cases hb
        obtain ⟨e1, e2⟩ := hf.init _ _ _ _ _ _ _ h2
        have hl := second i1.2 i1.1 hc
        obtain ⟨h4, h5⟩ := hf.step _ _ _ _ h3 (by rw [e2]; exact hl.1)
        rw [e1, e2] at h5
        exact ⟨hl.2 h5, h4⟩
      · cases hb
        exact i1
  refine bind_congr_ok (congrFun (whileM_congr (DNInv st 0 dt t0 (t0 + n * dt)) ?_ ?_ inv) w₁) fun s₂ w₂ h2 => ?_
  · intro s w hs _
    refine bind_congr_ok rfl fun s₁ w₁ h1 => ?_
    have i1 := obsInv hs h1
    split
    · rename_i hc
      rw [h.doStep s₁.q i1.2 ((first i1.2 i1.1 hc).trans sub0)]
    · split
      · rename_i hc
        refine bind_congr_ok rfl fun q w₂ h2 => ?_
        obtain ⟨e1, e2⟩ := hf.init _ _ _ _ _ _ _ h2
        rw [h.doStep q (by rw [e2]; exact (second i1.2 i1.1 hc).1) (by rw [e1, e2]; exact (second i1.2 i1.1 hc).2.trans sub0)]
      · rfl
  · intro s w s' w' hs _ hb
    exact hbody hs hb
  · have i2 := (whileM_ok_inv (DNInv st 0 dt t0 (t0 + n * dt)) (fun s w s' w' hs _ hb => hbody hs hb) inv h2).1
    have i2' : DNInv st eps dt t0 (t0 + n * dt) s₂ ∧ (dt < 0 → t0 + n * dt ≤ st.curTime s₂.q) := by
      refine ⟨⟨sub0 i2.1, i2.2⟩, fun hn => ?_⟩
      have := i2.1
      unfold during at this
      rw [if_neg (not_lt.2 hn.le)] at this
      linarith [this.1]
    -- the last loop
    have step : ∀ {s : DenseState Q S K}, DNInv st eps dt t0 (t0 + n * dt) s ∧ (dt < 0 → t0 + n * dt ≤ st.curTime s.q) →
        (TimeArith.exact K eps).lt (st.curTime s.q) (t0 + n * dt) = true → 0 < dt ∧
        ((TimeArith.exact K eps).lessWithSign (t0 + n * dt) ((TimeArith.exact K eps).add (st.curTime s.q) (st.curDt s.q)) (st.curDt s.q) = true →
          SameDir dt (t0 + n * dt - st.curTime s.q) ∧
          duringStep (st.curTime s.q) (t0 + n * dt - st.curTime s.q) ⊆ during eps dt t0 (t0 + n * dt)) ∧
        ((TimeArith.exact K eps).lessWithSign (t0 + n * dt) ((TimeArith.exact K eps).add (st.curTime s.q) (st.curDt s.q)) (st.curDt s.q) = false →
          duringStep (st.curTime s.q) (st.curDt s.q) ⊆ during eps dt t0 (t0 + n * dt)) := by
      rintro s ⟨⟨hm, hd⟩, hneg⟩ hlt
      simp only [TimeArith.exact, decide_eq_true_eq] at hlt
      have hp : 0 < dt := by
        rcases lt_or_gt_of_ne hd0 with hn | hp
        · linarith [hneg hn]
        · exact hp
      have hp2 := hd.pos_iff.2 hp
      unfold during at hm ⊢
      rw [if_pos hp] at hm ⊢
      simp only [TimeArith.lessWithSign, TimeArith.exact, decide_eq_true hp2, if_true, decide_eq_true_eq, decide_eq_false_iff_not, not_lt]
      refine ⟨hp, fun _ => ⟨Or.inl ⟨hp, by linarith⟩, duringStep_subset hm ⟨by linarith [hm.1], by linarith⟩⟩, fun hc =>
        duringStep_subset hm ⟨by linarith [hm.1], by linarith⟩⟩
    refine bind_congr_ok (congrFun (whileM_congr
      (fun s => DNInv st eps dt t0 (t0 + n * dt) s ∧ (dt < 0 → t0 + n * dt ≤ st.curTime s.q)) ?_ ?_ i2') w₂) fun s₂ w₂ h2 => rfl
    · intro s w hs hc
      obtain ⟨hp, s1, s2⟩ := step hs hc
      split
      · rename_i hcl
        refine bind_congr_ok rfl fun q w₂ h2 => ?_
        obtain ⟨e1, e2⟩ := hf.init _ _ _ _ _ _ _ h2
        rw [h.doStep q (by rw [e2]; exact (s1 hcl).1) (by rw [e1, e2]; exact (s1 hcl).2)]
      · rename_i hcl
        rw [pure_bind, pure_bind, h.doStep s.q hs.1.2 (s2 (Bool.not_eq_true _ ▸ hcl))]
    · intro s w s' w' hs hc hb
      obtain ⟨hp, s1, s2⟩ := step hs hc
      split at hb
      · rename_i hcl
        obtain ⟨q, w₂, h2, hb⟩ := bind_ok_inv hb
        obtain ⟨q', w₃, h3, hb⟩ := bind_ok_inv hb
        cases hb
        obtain ⟨e1, e2⟩ := hf.init _ _ _ _ _ _ _ h2
        obtain ⟨h4, h5⟩ := hf.step _ _ _ _ h3 (by rw [e2]; exact (s1 hcl).1)
        rw [e1, e2] at h5
        exact ⟨⟨(s1 hcl).2 h5, h4⟩, fun hn => absurd hp (not_lt.2 hn.le)⟩
      · rename_i hcl
        rw [pure_bind] at hb
        obtain ⟨q', w₃, h3, hb⟩ := bind_ok_inv hb
        cases hb
        obtain ⟨h4, h5⟩ := hf.step _ _ _ _ h3 hs.1.2
        exact ⟨⟨s2 (Bool.not_eq_true _ ▸ hcl) h5, h4⟩, fun hn => absurd hp (not_lt.2 hn.le)⟩

end
end Verif
