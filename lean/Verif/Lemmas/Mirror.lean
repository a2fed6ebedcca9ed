import Verif.Lemmas.Observers
import Verif.Lemmas.Controlled
import Verif.Spec.Mirror
import Verif.Props.LessWithSign

/-! Helper lemmas for C13. -/

namespace Verif
open SimCtx
variable {Q S K : Type} [Field K] [LinearOrder K] [IsStrictOrderedRing K]

def NegT (a a' : K) : Prop := a' = -a
def NegD (d d' : K) : Prop := d ≠ 0 ∧ d' = -d
def NegW (w w' : Log S K) : Prop := w' = w.neg
def NegJ (q q' : Q) (w w' : Log S K) : Prop := q = q' ∧ NegW w w'

abbrev negCtx (S K : Type) [Field K] [LinearOrder K] : SimCtx (Log S K) (Log S K) := plainCtx NegW

theorem negTimeRel (eps : K) (heps : 0 ≤ eps) :
    TimeRel (TimeArith.exact K eps) (TimeArith.exact K eps) NegT NegD where
  add := by rintro a _ d _ rfl ⟨_, rfl⟩; simp only [NegT, TimeArith.exact]; ring
  grid := by rintro a _ d _ n rfl ⟨_, rfl⟩; simp only [NegT, TimeArith.exact]; ring
  less := by rintro a _ b _ d _ rfl rfl ⟨h, rfl⟩; exact (less_with_sign_neg eps a b d h).1.symm
  lessEq := by rintro a _ b _ d _ rfl rfl ⟨h, rfl⟩; exact (less_with_sign_neg eps a b d h).2.symm
  sub := by
    rintro a _ b _ d _ rfl rfl ⟨h, rfl⟩ hl
    rw [exact_less] at hl
    refine ⟨?_, by simp only [TimeArith.exact]; ring⟩
    rintro h0
    simp only [TimeArith.exact] at h0
    rw [h0, mul_zero] at hl
    linarith
  minAbs := by
    rintro d _ e _ ⟨hd, rfl⟩ ⟨he, rfl⟩
    simp only [NegD, TimeArith.minAbs, TimeArith.stdMin, TimeArith.stdMax, TimeArith.exact,
      decide_eq_true_eq]
    rcases lt_or_gt_of_ne hd with h | h
    · rw [if_neg h.not_gt, if_pos (neg_pos.mpr h)]
      simp only [neg_lt_neg_iff]
      split <;> exact ⟨by assumption, rfl⟩
    · rw [if_pos h, if_neg (show ¬ 0 < -d by linarith)]
      simp only [neg_lt_neg_iff]
      split <;> exact ⟨by assumption, rfl⟩
  maxAbs := by
    rintro d _ e _ ⟨hd, rfl⟩ ⟨he, rfl⟩
    simp only [NegD, TimeArith.maxAbs, TimeArith.stdMin, TimeArith.stdMax, TimeArith.exact,
      decide_eq_true_eq]
    rcases lt_or_gt_of_ne hd with h | h
    · rw [if_neg h.not_gt, if_pos (neg_pos.mpr h)]
      simp only [neg_lt_neg_iff]
      split <;> exact ⟨by assumption, rfl⟩
    · rw [if_pos h, if_neg (show ¬ 0 < -d by linarith)]
      simp only [neg_lt_neg_iff]
      split <;> exact ⟨by assumption, rfl⟩

omit [IsStrictOrderedRing K] in
theorem NegW.push {w w' : Log S K} (h : NegW w w') (e : Event S K) : NegW (w ++ [e]) (w' ++ [e.neg]) := by
  unfold NegW at *; subst h; simp [Log.neg]

theorem neg_basic_sim (step : Q → S → K → K → Except Err (Q × S)) :
    BasicSim (negCtx S K) NegJ Eq NegT NegD (loggedBasic step) (loggedBasic (mirrorStep step)) where
  step := by
    rintro q _ x _ t _ d _ w w' ⟨rfl, hw⟩ rfl rfl ⟨_, rfl⟩
    simp only [loggedBasic, mirrorStep, neg_neg]
    have := hw.push (.step x t d)
    cases step q x t d with
    | ok r => exact .ok ⟨⟨rfl, this⟩, rfl⟩
    | error e => exact .err this
  mono := by intros; exact plainCtx_mono _ _

theorem neg_ctrl_sim (f : Q → S → K → K → Except Err (TryResult Q S K))
    (hf : ∀ q x t dt r, f q x t dt = .ok r → dt ≠ 0 → r.dt ≠ 0) :
    CtrlSim (negCtx S K) NegJ Eq NegT NegD (loggedControlled f) (loggedControlled (mirrorTry f)) where
  step := by
    rintro q _ x _ t _ d _ w w' ⟨rfl, hw⟩ rfl rfl ⟨hd, rfl⟩
    simp only [loggedControlled, mirrorTry, neg_neg]
    cases h : f q x t d with
    | ok r =>
      exact .ok ⟨⟨rfl, hw.push (.tried x t d r.success)⟩, rfl, rfl, ⟨hf _ _ _ _ _ h hd, rfl⟩, rfl⟩
    | error e => exact .err hw
  mono := by intros; exact plainCtx_mono _ _

theorem neg_obs_sim {J : Q → Prop} : ObsSim (negCtx S K) (fun q q' w w' => J q ∧ NegJ q q' w w') Eq NegT
    record record where
  call := by
    rintro q _ x _ t _ w w' ⟨hJ, rfl, hw⟩ rfl rfl
    exact .ok ⟨hJ, rfl, hw.push (.obs x t)⟩
  mono := by intros; exact plainCtx_mono _ _

theorem neg_obs_sim' : ObsSim (Q := Q) (Q' := Q) (negCtx S K) NegJ Eq NegT record record where
  call := by
    rintro q _ x _ t _ w w' ⟨rfl, hw⟩ rfl rfl
    exact .ok ⟨rfl, hw.push (.obs x t)⟩
  mono := by intros; exact plainCtx_mono _ _

omit [IsStrictOrderedRing K] in
theorem image_eq {α β : Type} {R : α → β → Log S K → Log S K → Prop} {f : α → β}
    (hR : ∀ a a' w w', R a a' w w' → a' = f a ∧ NegW w w')
    {r : Res (Log S K) α} {r' : Res (Log S K) β} (h : (negCtx S K).Rel R r r') :
    r' = r.image f Log.neg := by
  cases h with
  | ok h =>
    obtain ⟨h1, h2⟩ := hR _ _ _ _ h
    rw [h1, show _ = _ from h2]; rfl
  | err h => rw [show _ = _ from h]; rfl
  | esc h _ => exact absurd h id
  | ub => rfl
  | div => rfl

theorem logCall_neg {α : Type} {R : α → α → Prop} {w w' : Log S K} (hw : NegW w w') (e : Event S K)
    (r : Except Err α) (hR : ∀ a, r = .ok a → R a a) :
    (negCtx S K).Rel (fun a a' w w' => a = a' ∧ R a a' ∧ NegW w w') (logCall e r w)
      (logCall e.neg r w') := by
  unfold logCall
  cases r with
  | ok a => exact .ok ⟨rfl, hR a rfl, hw.push e⟩
  | error x => exact .err (hw.push e)

/-- the stepper state is the same on both sides, its step size is not zero -/
def NegDJ (p : PureDense Q S K) (q q' : Q) (w w' : Log S K) : Prop := p.curDt q ≠ 0 ∧ NegJ q q' w w'

theorem neg_dense_init (p : PureDense Q S K) (hp : DenseDir p) {q : Q} {x : S} {t d : K}
    {w w' : Log S K} (hw : NegW w w') (hd : d ≠ 0) :
    (negCtx S K).Rel (NegDJ p) ((loggedDense p).init q x t d w)
      ((loggedDense p.mirror).init q x (-t) (-d) w') := by
  simp only [loggedDense, PureDense.mirror, neg_neg]
  refine (logCall_neg (R := fun q _ => p.curDt q ≠ 0) hw (.init x t d) _ ?_).mono ?_
  · intro q' h; rw [hp.init_dt _ _ _ _ _ h]; exact hd
  · rintro q' _ w w' ⟨rfl, h, hw⟩; exact ⟨h, rfl, hw⟩

theorem neg_dense_step (p : PureDense Q S K) (hp : DenseDir p) {q : Q} {w w' : Log S K}
    (hw : NegW w w') (hd : p.curDt q ≠ 0) :
    (negCtx S K).Rel (NegDJ p) ((loggedDense p).doStep q w)
      ((loggedDense p.mirror).doStep q w') := by
  simp only [loggedDense, PureDense.mirror]
  refine (logCall_neg (R := fun q _ => p.curDt q ≠ 0) hw
    (.step (p.curState q) (p.curTime q) (p.curDt q)) _ ?_).mono ?_
  · intro q' h; exact (hp.dir _ _ h hd).ne_zero
  · rintro q' _ w w' ⟨rfl, h, hw⟩; exact ⟨h, rfl, hw⟩

theorem neg_dense_calc (p : PureDense Q S K) {q : Q} {t : K} {w w' : Log S K}
    (hw : NegW w w') :
    (negCtx S K).Rel (fun x x' w w' => x = x' ∧ NegW w w') ((loggedDense p).calcState q t w)
      ((loggedDense p.mirror).calcState q (-t) w') := by
  simp only [loggedDense, PureDense.mirror, neg_neg]
  refine (logCall_neg (R := fun _ _ => True) hw (.calc t) _ fun _ _ => trivial).mono ?_
  rintro q' _ w w' ⟨rfl, h, hw⟩; exact ⟨rfl, hw⟩

theorem neg_dense_sim (p : PureDense Q S K) (hp : DenseDir p) :
    DenseSim (negCtx S K) (NegDJ p) Eq NegT NegD (loggedDense p) (loggedDense p.mirror) where
  init := by
    rintro q _ x _ t _ d _ w w' ⟨_, rfl, hw⟩ rfl rfl ⟨hd, rfl⟩
    exact neg_dense_init p hp hw hd
  step := by
    rintro q _ w w' ⟨hd, rfl, hw⟩
    exact neg_dense_step p hp hw hd
  calc_state := by
    rintro q _ t _ w w' ⟨hd, rfl, hw⟩ rfl
    refine (neg_dense_calc p hw).mono ?_
    rintro x _ w w' ⟨rfl, hw⟩; exact ⟨⟨hd, rfl, hw⟩, rfl⟩
  curState := by rintro q _ w w' ⟨hd, rfl, hw⟩; rfl
  curTime := by rintro q _ w w' ⟨hd, rfl, hw⟩; rfl
  curDt := by rintro q _ w w' ⟨hd, rfl, hw⟩; exact ⟨hd, rfl⟩
  mono_init := by intros; exact plainCtx_mono _ _
  mono_step := by intros; exact plainCtx_mono _ _
  mono_calc := by intros; exact plainCtx_mono _ _

omit [Field K] [LinearOrder K] [IsStrictOrderedRing K] in
theorem getLastD_mem_cons (l : List K) (c : K) : l.getLastD c ∈ c :: l := by
  induction l generalizing c with
  | nil => simp
  | cons a l ih => rw [List.getLastD_cons]; exact List.mem_cons_of_mem _ (ih a)

omit [Field K] [LinearOrder K] [IsStrictOrderedRing K] in
theorem getLastD_rel {R : K → K → Prop} (hr : ∀ a, R a a) {l : List K} (d : K) (h : l.Pairwise R)
    {a : K} (ha : a ∈ l) : R a (l.getLastD d) := by
  induction l generalizing d with
  | nil => simp at ha
  | cons b l ih =>
    rw [List.getLastD_cons]
    rw [List.pairwise_cons] at h
    cases l with
    | nil => simp at ha; subst ha; exact hr _
    | cons c l =>
      rcases List.mem_cons.mp ha with rfl | ha
      · apply h.1
        rw [List.getLastD_cons]
        exact getLastD_mem_cons _ _
      · exact ih _ h.2 ha

theorem MonotoneTimes.last {dt : K} {l : List K} (h : MonotoneTimes dt l) (d : K) {a : K} (ha : a ∈ l) :
    0 ≤ dirSign dt * (l.getLastD d - a) := by
  have := getLastD_rel (R := fun a b => if 0 < dt then a ≤ b else b ≤ a)
    (fun a => by split <;> exact le_rfl) d h ha
  unfold dirSign
  split at this <;> rename_i h0
  · rw [if_pos h0]; linarith
  · rw [if_neg h0]; linarith

omit [LinearOrder K] [IsStrictOrderedRing K] in
theorem getLastD_neg (l : List K) (d : K) : (l.map (- ·)).getLastD (-d) = -(l.getLastD d) := by
  induction l generalizing d with
  | nil => rfl
  | cons a l ih => rw [List.map_cons, List.getLastD_cons, List.getLastD_cons, ih]

end Verif
