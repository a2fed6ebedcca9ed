import Verif.Lemmas.DenseSim
import Verif.Spec.Observers

/-! Helper lemmas for C16: simulations between runs that differ in the observer only. -/

namespace Verif
open SimCtx
variable {Q W V V' U S T α : Type}

/-- plain simulation: no escape -/
def plainCtx {W W' : Type} (RE : W → W' → Prop) : SimCtx W W' where
  RE := RE
  X _ _ _ := False
  E' _ _ := True
  refl _ := trivial
  trans _ _ := trivial

theorem plainCtx_mono {W W' β : Type} (RE : W → W' → Prop) (m : M W' β) : (plainCtx RE).Mono m := by
  constructor
  intro w'
  cases m w' <;> trivial

/-- both worlds have the same stepper part and `Rv`-related observer parts -/
def obsWorlds (Rv : V → V' → Prop) (p : W × V) (p' : W × V') : Prop := p.1 = p'.1 ∧ Rv p.2 p'.2

/-- equality of stepper states, together with `obsWorlds` -/
def obsJR (Rv : V → V' → Prop) (q q' : Q) (p : W × V) (p' : W × V') : Prop :=
  q = q' ∧ obsWorlds Rv p p'

theorem onFst_sim (Rv : V → V' → Prop) (m : M W α) {p : W × V} {p' : W × V'}
    (h : obsWorlds Rv p p') :
    (plainCtx (obsWorlds Rv)).Rel (fun a a' p p' => a = a' ∧ obsWorlds Rv p p')
      (m.onFst p) (m.onFst p') := by
  obtain ⟨w, v⟩ := p
  obtain ⟨w', v'⟩ := p'
  obtain ⟨h1, h2⟩ := h
  simp only at h1 h2
  subst h1
  unfold M.onFst
  simp only
  cases m w with
  | ok a w1 => exact .ok ⟨rfl, rfl, h2⟩
  | err e w1 => exact .err ⟨rfl, h2⟩
  | ub => exact .ub
  | div => exact .div

theorem eqTimeRel (A : TimeArith T) : TimeRel A A Eq Eq where
  add := by rintro _ _ _ _ rfl rfl; rfl
  grid := by rintro _ _ _ _ n rfl rfl; rfl
  less := by rintro _ _ _ _ _ _ rfl rfl rfl; rfl
  lessEq := by rintro _ _ _ _ _ _ rfl rfl rfl; rfl
  sub := by rintro _ _ _ _ _ _ rfl rfl rfl _; rfl
  minAbs := by rintro _ _ _ _ rfl rfl; rfl
  maxAbs := by rintro _ _ _ _ rfl rfl; rfl

theorem lift_basic_sim (Rv : V → V' → Prop) (st : BasicStepper Q W S T) :
    BasicSim (plainCtx (obsWorlds Rv)) (obsJR Rv) Eq Eq Eq (st.lift V) (st.lift V') where
  step := by
    rintro q _ x _ t _ d _ p p' ⟨rfl, h⟩ rfl rfl rfl
    refine (onFst_sim Rv _ h).mono ?_
    rintro ⟨q1, x1⟩ _ w w' ⟨rfl, h⟩
    exact ⟨⟨rfl, h⟩, rfl⟩
  mono := by intros; exact plainCtx_mono _ _

theorem lift_ctrl_sim (Rv : V → V' → Prop) (st : ControlledStepper Q W S T) :
    CtrlSim (plainCtx (obsWorlds Rv)) (obsJR Rv) Eq Eq Eq (st.lift V) (st.lift V') where
  step := by
    rintro q _ x _ t _ d _ p p' ⟨rfl, h⟩ rfl rfl rfl
    refine (onFst_sim Rv _ h).mono ?_
    rintro r _ w w' ⟨rfl, h⟩
    exact ⟨⟨rfl, h⟩, rfl, rfl, rfl, rfl⟩
  mono := by intros; exact plainCtx_mono _ _

theorem lift_dense_sim (Rv : V → V' → Prop) (st : DenseStepper Q W S T) :
    DenseSim (plainCtx (obsWorlds Rv)) (obsJR Rv) Eq Eq Eq (st.lift V) (st.lift V') where
  init := by
    rintro q _ x _ t _ d _ p p' ⟨rfl, h⟩ rfl rfl rfl
    exact onFst_sim Rv _ h
  step := by
    rintro q _ p p' ⟨rfl, h⟩
    exact onFst_sim Rv _ h
  calc_state := by
    rintro q _ t _ p p' ⟨rfl, h⟩ rfl
    refine (onFst_sim Rv _ h).mono ?_
    rintro x _ w w' ⟨rfl, h⟩
    exact ⟨⟨rfl, h⟩, rfl⟩
  curState := by rintro q _ p p' ⟨rfl, h⟩; rfl
  curTime := by rintro q _ p p' ⟨rfl, h⟩; rfl
  curDt := by rintro q _ p p' ⟨rfl, h⟩; rfl
  mono_init := by intros; exact plainCtx_mono _ _
  mono_step := by intros; exact plainCtx_mono _ _
  mono_calc := by intros; exact plainCtx_mono _ _

/-- two observers that preserve the relation of the observers' data and return normally -/
theorem obs_sim (Rv : V → V' → Prop) (obs : Observer (W × V) S T) (obs' : Observer (W × V') S T)
    (h : ∀ x t w v v', Rv v v' → ∃ v1 v1', obs x t (w, v) = .ok () (w, v1) ∧
      obs' x t (w, v') = .ok () (w, v1') ∧ Rv v1 v1') :
    ObsSim (plainCtx (obsWorlds Rv)) (obsJR (Q := Q) Rv) Eq Eq obs obs' where
  call := by
    rintro q _ x _ t _ ⟨w, v⟩ ⟨w', v'⟩ ⟨rfl, h1, hv⟩ rfl rfl
    simp only at h1 hv
    subst h1
    obtain ⟨v1, v1', h1, h2, h3⟩ := h x t w v v' hv
    rw [h1, h2]
    exact .ok ⟨rfl, rfl, h3⟩
  mono := by intros; exact plainCtx_mono _ _

/-- related outcomes look the same through projections that determine the relation -/
theorem view_eq {R : α → α → W × V → W × V' → Prop} {Rv : V → V' → Prop} {g : W × V → U}
    {g' : W × V' → U} (hg : ∀ w v v', Rv v v' → g (w, v) = g' (w, v'))
    (hR : ∀ a a' p p', R a a' p p' → a = a' ∧ obsWorlds Rv p p')
    {r : Res (W × V) α} {r' : Res (W × V') α} (h : (plainCtx (obsWorlds Rv)).Rel R r r') :
    r.view g = r'.view g' := by
  have key : ∀ p p', obsWorlds Rv p p' → g p = g' p' := by
    rintro ⟨w, v⟩ ⟨w', v'⟩ ⟨h1, h2⟩
    simp only at h1 h2
    subst h1
    exact hg _ _ _ h2
  cases h with
  | ok h =>
    obtain ⟨rfl, h2⟩ := hR _ _ _ _ h
    simp only [Res.view, key _ _ h2]
  | err h => simp only [Res.view, key _ _ h]
  | esc h _ => exact absurd h id
  | ub => rfl
  | div => rfl

section
variable (A : TimeArith T) {Rv : V → V' → Prop} {g : W × V → U} {g' : W × V' → U}
  (hg : ∀ w v v', Rv v v' → g (w, v) = g' (w, v'))
  {obs : Observer (W × V) S T} {obs' : Observer (W × V') S T}
  (h : ∀ x t w v v', Rv v v' → ∃ v1 v1', obs x t (w, v) = .ok () (w, v1) ∧
      obs' x t (w, v') = .ok () (w, v1') ∧ Rv v1 v1')
  {w : W} {v : V} {v' : V'} (hv : Rv v v')
include hg h hv

theorem basic_view (st : BasicStepper Q W S T) (q : Q) (x : S) (t0 t1 dt : T) (n : ℕ) (l : List T) :
    (integrateNStepsBasic A (st.lift V) obs q x t0 dt n (w, v)).view g =
      (integrateNStepsBasic A (st.lift V') obs' q x t0 dt n (w, v')).view g' ∧
    (integrateConstBasic A (st.lift V) obs q x t0 t1 dt (w, v)).view g =
      (integrateConstBasic A (st.lift V') obs' q x t0 t1 dt (w, v')).view g' ∧
    (integrateAdaptiveBasic A (st.lift V) obs q x t0 t1 dt (w, v)).view g =
      (integrateAdaptiveBasic A (st.lift V') obs' q x t0 t1 dt (w, v')).view g' ∧
    (integrateTimesBasic A (st.lift V) obs q x l dt (w, v)).view g =
      (integrateTimesBasic A (st.lift V') obs' q x l dt (w, v')).view g' := by
  have hA := eqTimeRel A
  have hst := lift_basic_sim Rv st
  have ho := obs_sim (Q := Q) Rv obs obs' h
  have hJ : obsJR Rv q q (w, v) (w, v') := ⟨rfl, rfl, hv⟩
  have hl : List.Forall₂ Eq l l := List.forall₂_same.mpr fun _ _ => rfl
  refine ⟨view_eq hg ?_ (integrateNStepsBasic_sim hA hst ho n hJ rfl rfl rfl),
    view_eq hg ?_ (integrateConstBasic_sim hA hst ho (fun _ _ => False)
      (fun _ _ _ _ _ _ h _ => h.elim) hJ rfl rfl rfl rfl),
    view_eq hg ?_ (integrateAdaptiveBasic_sim hA hst ho (fun _ _ _ _ h => ⟨rfl, h.2⟩) hJ rfl rfl rfl
      rfl), view_eq hg ?_ (integrateTimesBasic_sim hA hst ho hl hJ rfl rfl)⟩
  · rintro ⟨_, _⟩ ⟨_, _⟩ p p' ⟨⟨_, _, _, h⟩, h1, h2⟩; exact ⟨Prod.ext h1 h2, h⟩
  · rintro ⟨_, _⟩ ⟨_, _⟩ p p' ⟨⟨_, _, _, h⟩, -, h1, h2⟩; exact ⟨Prod.ext h1 h2, h⟩
  · rintro ⟨_, _⟩ ⟨_, _⟩ p p' ⟨⟨_, _, _, h⟩, h1, h2⟩; exact ⟨Prod.ext h1 h2, h⟩
  · rintro ⟨_, _⟩ ⟨_, _⟩ p p' ⟨⟨_, _, _, h⟩, h1, h2⟩; exact ⟨Prod.ext h1 h2, h⟩

theorem ctrl_view (st : ControlledStepper Q W S T) (q : Q) (x : S) (t0 t1 dt : T) (n : ℕ)
    (l : List T) :
    (integrateNStepsControlled A (st.lift V) obs q x t0 dt n (w, v)).view g =
      (integrateNStepsControlled A (st.lift V') obs' q x t0 dt n (w, v')).view g' ∧
    (integrateConstControlled A (st.lift V) obs q x t0 t1 dt (w, v)).view g =
      (integrateConstControlled A (st.lift V') obs' q x t0 t1 dt (w, v')).view g' ∧
    (integrateAdaptiveControlled A (st.lift V) obs q x t0 t1 dt (w, v)).view g =
      (integrateAdaptiveControlled A (st.lift V') obs' q x t0 t1 dt (w, v')).view g' ∧
    (integrateTimesControlled A (st.lift V) obs q x l dt (w, v)).view g =
      (integrateTimesControlled A (st.lift V') obs' q x l dt (w, v')).view g' := by
  have hA := eqTimeRel A
  have hst := lift_ctrl_sim Rv st
  have ho := obs_sim (Q := Q) Rv obs obs' h
  have hJ : obsJR Rv q q (w, v) (w, v') := ⟨rfl, rfl, hv⟩
  have hl : List.Forall₂ Eq l l := List.forall₂_same.mpr fun _ _ => rfl
  have hE : ∀ (q q' : Q) p p', obsJR Rv q q' p p' →
      (plainCtx (obsWorlds (W := W) Rv)).RE p p' := fun _ _ _ _ h => h.2
  refine ⟨view_eq hg ?_ (integrateNStepsControlled_sim hA hE hst ho n (fun _ _ _ _ h => ⟨rfl, h.2⟩)
      hJ rfl rfl rfl),
    view_eq hg ?_ (integrateConstControlled_sim hA hE hst ho (fun _ _ _ _ h => ⟨rfl, h.2⟩)
      hJ rfl rfl rfl rfl),
    view_eq hg ?_ (integrateAdaptiveControlled_sim hA hE hst ho hJ rfl rfl rfl rfl),
    view_eq hg ?_ (integrateTimesControlled_sim hA hE hst ho hl hJ rfl rfl)⟩
  · rintro ⟨_, _⟩ ⟨_, _⟩ p p' ⟨⟨_, _, _, h⟩, h1, h2⟩; exact ⟨Prod.ext h1 h2, h⟩
  · rintro ⟨_, _⟩ ⟨_, _⟩ p p' ⟨⟨_, _, _, h⟩, h1, h2⟩; exact ⟨Prod.ext h1 h2, h⟩
  · rintro ⟨_, _, _, _⟩ ⟨_, _, _, _⟩ p p' ⟨⟨_, _, _, h⟩, h1, h2, h3, h4⟩
    simp only at h1 h2 h3 h4
    subst h1; subst h2; subst h3; subst h4
    exact ⟨rfl, h⟩
  · rintro ⟨_, _⟩ ⟨_, _⟩ p p' ⟨⟨_, _, _, h⟩, h1, h2⟩; exact ⟨Prod.ext h1 h2, h⟩

theorem dense_view (st : DenseStepper Q W S T) (q : Q) (x : S) (t0 t1 dt : T) (n : ℕ)
    (l : List T) :
    (integrateNStepsDense A (st.lift V) obs q x t0 dt n (w, v)).view g =
      (integrateNStepsDense A (st.lift V') obs' q x t0 dt n (w, v')).view g' ∧
    (integrateConstDense A (st.lift V) obs q x t0 t1 dt (w, v)).view g =
      (integrateConstDense A (st.lift V') obs' q x t0 t1 dt (w, v')).view g' ∧
    (integrateAdaptiveDense A (st.lift V) obs q x t0 t1 dt (w, v)).view g =
      (integrateAdaptiveDense A (st.lift V') obs' q x t0 t1 dt (w, v')).view g' ∧
    (integrateTimesDense A (st.lift V) obs q x l dt (w, v)).view g =
      (integrateTimesDense A (st.lift V') obs' q x l dt (w, v')).view g' := by
  have hA := eqTimeRel A
  have hst := lift_dense_sim Rv st
  have ho := obs_sim (Q := Q) Rv obs obs' h
  have hJ : obsJR Rv q q (w, v) (w, v') := ⟨rfl, rfl, hv⟩
  refine ⟨view_eq hg ?_ (integrateNStepsDense_sim hA (by rintro _ _ _ _ rfl rfl; rfl)
      (by rintro _ _ _ _ rfl rfl; rfl) hst ho n (hst.init hJ rfl rfl rfl) rfl rfl rfl),
    view_eq hg ?_ (integrateConstDense_sim hA hst ho (hst.init hJ rfl rfl rfl) rfl rfl rfl rfl),
    view_eq hg ?_ (integrateAdaptiveDense_sim (A := A) (A' := A) (e := t1) (e' := t1)
      (JR := obsJR (Q := Q) Rv) (JR2 := obsJR (Q := Q) Rv) (RS := Eq) ?_ (fun _ _ _ _ h _ => h)
      ?_ ?_ ?_ ?_ ?_ ?_
      hst.mono_init hst.mono_step ho.mono (hst.init hJ rfl rfl rfl)), ?_⟩
  · rintro ⟨_, _⟩ ⟨_, _⟩ p p' ⟨⟨_, _, _, h⟩, h1, h2⟩; exact ⟨Prod.ext h1 h2, h⟩
  · rintro ⟨_, _⟩ ⟨_, _⟩ p p' ⟨⟨_, _, _, h⟩, h1, h2⟩; exact ⟨Prod.ext h1 h2, h⟩
  · rintro ⟨_, _⟩ ⟨_, _⟩ p p' ⟨⟨_, _, _, h⟩, h1, h2⟩; exact ⟨Prod.ext h1 h2, h⟩
  · rintro q _ p p' ⟨rfl, _⟩; rfl
  · rintro q _ p p' ⟨rfl, _⟩; rfl
  · rintro q _ p p' h _; exact hst.step h
  · rintro q _ p p' ⟨rfl, h⟩ _; exact hst.init ⟨rfl, h⟩ rfl rfl rfl
  · rintro q _ p p' ⟨rfl, h⟩; exact ho.call ⟨rfl, h⟩ rfl rfl
  · rintro q _ p p' ⟨rfl, h⟩; exact ho.call ⟨rfl, h⟩ rfl rfl
  · rintro q _ p p' ⟨rfl, h⟩; rfl
  · cases l with
    | nil => simp only [integrateTimesDense, M.pure_apply, Res.view, hg w v v' hv]
    | cons t l =>
      refine view_eq hg ?_ (integrateTimesDense_sim (A := A) (A' := A)
        (JR := obsJR (Q := Q) Rv) (RS := Eq) (RT := Eq) ?_ ?_ (fun _ _ _ _ h => hst.step h)
        (fun _ _ _ _ _ _ h h' => hst.calc_state h h') ?_ ho hst.mono_init hst.mono_step
        hst.mono_calc rfl rfl (List.forall₂_same.mpr fun _ _ => rfl) (hst.init hJ rfl rfl rfl))
      · rintro ⟨_, _⟩ ⟨_, _⟩ p p' ⟨⟨_, _, _, h⟩, h1, h2⟩; exact ⟨Prod.ext h1 h2, h⟩
      · rintro q _ p p' τ _ ⟨rfl, _⟩ rfl _; rfl
      · rintro q _ p p' ⟨rfl, _⟩; rfl
      · rintro q _ p p' τ l ⟨rfl, h⟩ _ _; exact hst.init ⟨rfl, h⟩ rfl rfl rfl

end

/-- what a collection of slot observers does -/
theorem collection_apply {n : ℕ} (o : Fin n → S → T → V → V) (l : List (Fin n)) (hl : l.Nodup)
    (x : S) (t : T) (w : W) (v : Fin n → V) :
    observerCollection (l.map (slotObserver (W := W) o)) x t (w, v) =
      .ok () (w, fun i => if i ∈ l then o i x t (v i) else v i) := by
  induction l generalizing v with
  | nil => simp [observerCollection, M.pure_apply]
  | cons a l ih =>
    have ha : a ∉ l := (List.nodup_cons.mp hl).1
    have := ih (List.nodup_cons.mp hl).2 (Function.update v a (o a x t (v a)))
    have e : observerCollection ((a :: l).map (slotObserver (W := W) o)) x t (w, v) =
        observerCollection (l.map (slotObserver (W := W) o)) x t
          (w, Function.update v a (o a x t (v a))) := rfl
    rw [e, this]
    congr 2
    funext i
    by_cases hi : i = a
    · subst hi; simp [ha]
    · simp [hi]

end Verif
