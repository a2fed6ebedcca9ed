import Verif.Lemmas.Mirror
import Verif.Spec.Rescale
import Mathlib.Tactic.FieldSimp

/-! Helper lemmas for C74. -/

namespace Verif
open SimCtx
variable {Q S K : Type} [Field K] [LinearOrder K] [IsStrictOrderedRing K] {c b : K}

def ScaleT (c b : K) (a a' : K) : Prop := a' = c * a + b
def ScaleD (c : K) (d d' : K) : Prop := d' = c * d
def ScaleW (c b : K) (w w' : Log S K) : Prop := w' = w.rescale c b
def ScaleJ (c b : K) (q q' : Q) (w w' : Log S K) : Prop := q = q' ∧ ScaleW c b w w'

abbrev scaleCtx (S : Type) {K : Type} [Field K] [LinearOrder K] (c b : K) : SimCtx (Log S K) (Log S K) := plainCtx (ScaleW c b)

theorem scale_less (hc : 0 < c) (eps a a' d : K) :
    (TimeArith.exact K (c * eps)).lessWithSign (c * a + b) (c * a' + b) (c * d) = (TimeArith.exact K eps).lessWithSign a a' d ∧
    (TimeArith.exact K (c * eps)).lessEqWithSign (c * a + b) (c * a' + b) (c * d) = (TimeArith.exact K eps).lessEqWithSign a a' d := by
  have h1 : ∀ y : K, 0 < c * y ↔ 0 < y := fun y => mul_pos_iff_of_pos_left hc
  have h2 : ∀ y z : K, c * y < c * z ↔ y < z := fun y z => mul_lt_mul_iff_right₀ hc
  have h3 : ∀ y z : K, c * y ≤ c * z ↔ y ≤ z := fun y z => mul_le_mul_iff_right₀ hc
  have e1 : c * a' + b - (c * a + b) = c * (a' - a) := by ring
  have e2 : c * a + b - (c * a' + b) = c * (a - a') := by ring
  constructor
  · simp only [TimeArith.lessWithSign, TimeArith.exact, h1, e1, e2, h2, decide_eq_true_eq]
  · simp only [TimeArith.lessEqWithSign, TimeArith.exact, h1, e1, e2, h3, decide_eq_true_eq]

theorem scaleTimeRel (hc : 0 < c) (eps : K) : TimeRel (TimeArith.exact K eps) (TimeArith.exact K (c * eps)) (ScaleT c b) (ScaleD c) where
  add := by rintro a _ d _ rfl rfl; simp only [ScaleT, TimeArith.exact]; ring
  grid := by rintro a _ d _ n rfl rfl; simp only [ScaleT, TimeArith.exact]; ring
  less := by rintro a _ a' _ d _ rfl rfl rfl; exact (scale_less hc eps a a' d).1.symm
  lessEq := by rintro a _ a' _ d _ rfl rfl rfl; exact (scale_less hc eps a a' d).2.symm
  sub := by rintro a _ a' _ d _ rfl rfl rfl _; simp only [ScaleD, TimeArith.exact]; ring
  minAbs := by
    rintro d _ e _ rfl rfl
    have h1 : ∀ y : K, 0 < c * y ↔ 0 < y := fun y => mul_pos_iff_of_pos_left hc
    have h2 : ∀ y z : K, c * y < c * z ↔ y < z := fun y z => mul_lt_mul_iff_right₀ hc
    simp only [ScaleD, TimeArith.minAbs, TimeArith.stdMin, TimeArith.stdMax, TimeArith.exact, decide_eq_true_eq, h1, h2]
    split <;> split <;> rfl
  maxAbs := by
    rintro d _ e _ rfl rfl
    have h1 : ∀ y : K, 0 < c * y ↔ 0 < y := fun y => mul_pos_iff_of_pos_left hc
    have h2 : ∀ y z : K, c * y < c * z ↔ y < z := fun y z => mul_lt_mul_iff_right₀ hc
    simp only [ScaleD, TimeArith.maxAbs, TimeArith.stdMin, TimeArith.stdMax, TimeArith.exact, decide_eq_true_eq, h1, h2]
    split <;> split <;> rfl

omit [LinearOrder K] [IsStrictOrderedRing K] in
theorem scale_back (hc : c ≠ 0) (t : K) : (c * t + b - b) / c = t := by field_simp; ring

omit [LinearOrder K] [IsStrictOrderedRing K] in
theorem scale_back' (hc : c ≠ 0) (d : K) : c * d / c = d := by field_simp

omit [LinearOrder K] [IsStrictOrderedRing K] in
theorem ScaleW.push {w w' : Log S K} (h : ScaleW c b w w') (e : Event S K) : ScaleW c b (w ++ [e]) (w' ++ [e.rescale c b]) := by
  unfold ScaleW at *; subst h; simp [Log.rescale]

omit [IsStrictOrderedRing K] in
theorem scale_basic_sim (hc : 0 < c) (step : Q → S → K → K → Except Err (Q × S)) :
    BasicSim (scaleCtx S c b) (ScaleJ c b) Eq (ScaleT c b) (ScaleD c) (loggedBasic step) (loggedBasic (rescaleStep c b step)) where
  step := by
    rintro q _ x _ t _ d _ w w' ⟨rfl, hw⟩ rfl rfl rfl
    simp only [loggedBasic, rescaleStep, scale_back hc.ne', scale_back' hc.ne']
    have := hw.push (.step x t d)
    cases step q x t d with
    | ok r => exact .ok ⟨⟨rfl, this⟩, rfl⟩
    | error e => exact .err this
  mono := by intros; exact plainCtx_mono _ _

omit [IsStrictOrderedRing K] in
theorem scale_ctrl_sim (hc : 0 < c) (f : Q → S → K → K → Except Err (TryResult Q S K)) :
    CtrlSim (scaleCtx S c b) (ScaleJ c b) Eq (ScaleT c b) (ScaleD c) (loggedControlled f) (loggedControlled (rescaleTry c b f)) where
  step := by
    rintro q _ x _ t _ d _ w w' ⟨rfl, hw⟩ rfl rfl rfl
    simp only [loggedControlled, rescaleTry, scale_back hc.ne', scale_back' hc.ne']
    cases h : f q x t d with
    | ok r => exact .ok ⟨⟨rfl, hw.push (.tried x t d r.success)⟩, rfl, rfl, rfl, rfl⟩
    | error e => exact .err hw
  mono := by intros; exact plainCtx_mono _ _

omit [IsStrictOrderedRing K] in
theorem scale_obs_sim : ObsSim (Q := Q) (Q' := Q) (scaleCtx S c b) (ScaleJ c b) Eq (ScaleT c b) record record where
  call := by
    rintro q _ x _ t _ w w' ⟨rfl, hw⟩ rfl rfl
    exact .ok ⟨rfl, hw.push (.obs x t)⟩
  mono := by intros; exact plainCtx_mono _ _

omit [IsStrictOrderedRing K] in
theorem scale_image_eq {α β : Type} {R : α → β → Log S K → Log S K → Prop} {f : α → β}
    (hR : ∀ a a' w w', R a a' w w' → a' = f a ∧ ScaleW c b w w')
    {r : Res (Log S K) α} {r' : Res (Log S K) β} (h : (scaleCtx S c b).Rel R r r') :
    r' = r.image f (Log.rescale c b) := by
  cases h with
  | ok h =>
    obtain ⟨h1, h2⟩ := hR _ _ _ _ h
    rw [h1, show _ = _ from h2]; rfl
  | err h => rw [show _ = _ from h]; rfl
  | esc h _ => exact absurd h id
  | ub => rfl
  | div => rfl

omit [IsStrictOrderedRing K] in
theorem logCall_scale {α : Type} {w w' : Log S K} (hw : ScaleW c b w w') (e : Event S K) (r : Except Err α) :
    (scaleCtx S c b).Rel (fun a a' w w' => a = a' ∧ ScaleW c b w w') (logCall e r w) (logCall (e.rescale c b) r w') := by
  unfold logCall
  cases r with
  | ok a => exact .ok ⟨rfl, hw.push e⟩
  | error x => exact .err (hw.push e)

omit [IsStrictOrderedRing K] in
theorem scale_dense_init (hc : 0 < c) (p : PureDense Q S K) {q : Q} {x : S} {t d : K} {w w' : Log S K} (hw : ScaleW c b w w') :
    (scaleCtx S c b).Rel (ScaleJ c b) ((loggedDense p).init q x t d w) ((loggedDense (p.rescale c b)).init q x (c * t + b) (c * d) w') := by
  simp only [loggedDense, PureDense.rescale, scale_back hc.ne', scale_back' hc.ne']
  exact logCall_scale hw (.init x t d) _

omit [IsStrictOrderedRing K] in
theorem scale_dense_step (p : PureDense Q S K) {q : Q} {w w' : Log S K} (hw : ScaleW c b w w') :
    (scaleCtx S c b).Rel (ScaleJ c b) ((loggedDense p).doStep q w) ((loggedDense (p.rescale c b)).doStep q w') := by
  simp only [loggedDense, PureDense.rescale]
  exact logCall_scale hw (.step (p.curState q) (p.curTime q) (p.curDt q)) _

omit [IsStrictOrderedRing K] in
theorem scale_dense_calc (hc : 0 < c) (p : PureDense Q S K) {q : Q} {t : K} {w w' : Log S K} (hw : ScaleW c b w w') :
    (scaleCtx S c b).Rel (fun x x' w w' => x = x' ∧ ScaleW c b w w') ((loggedDense p).calcState q t w)
      ((loggedDense (p.rescale c b)).calcState q (c * t + b) w') := by
  simp only [loggedDense, PureDense.rescale, scale_back hc.ne']
  exact logCall_scale hw (.calc t) _

omit [IsStrictOrderedRing K] in
theorem scale_dense_sim (hc : 0 < c) (p : PureDense Q S K) :
    DenseSim (scaleCtx S c b) (ScaleJ c b) Eq (ScaleT c b) (ScaleD c) (loggedDense p) (loggedDense (p.rescale c b)) where
  init := by
    rintro q _ x _ t _ d _ w w' ⟨rfl, hw⟩ rfl rfl rfl
    exact scale_dense_init hc p hw
  step := by
    rintro q _ w w' ⟨rfl, hw⟩
    exact scale_dense_step p hw
  calc_state := by
    rintro q _ t _ w w' ⟨rfl, hw⟩ rfl
    refine (scale_dense_calc hc p hw).mono ?_
    rintro x _ w w' ⟨rfl, hw⟩; exact ⟨⟨rfl, hw⟩, rfl⟩
  curState := by rintro q _ w w' ⟨rfl, hw⟩; rfl
  curTime := by rintro q _ w w' ⟨rfl, hw⟩; rfl
  curDt := by rintro q _ w w' ⟨rfl, hw⟩; rfl
  mono_init := by intros; exact plainCtx_mono _ _
  mono_step := by intros; exact plainCtx_mono _ _
  mono_calc := by intros; exact plainCtx_mono _ _

omit [LinearOrder K] [IsStrictOrderedRing K] in
theorem getLastD_scale (l : List K) (d : K) : (l.map (c * · + b)).getLastD (c * d + b) = c * l.getLastD d + b := by
  induction l generalizing d with
  | nil => rfl
  | cons a l ih => rw [List.map_cons, List.getLastD_cons, List.getLastD_cons, ih]

end Verif
