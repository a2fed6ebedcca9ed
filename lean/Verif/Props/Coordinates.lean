import Verif.Lemmas.Live
import Verif.Lemmas.Observers
import Verif.Lemmas.DenseSim
import Verif.Props.Commute
import Verif.Props.ErrorChecker
import Mathlib.LinearAlgebra.Pi

/-!
# C85: the units of the state and the order of its components do not matter

A problem is integrated twice, the second time in other coordinates.
-/

set_option linter.unusedSectionVars false

namespace Verif
open SimCtx
variable {K V U W : Type} {L : V → U}

/-- the states of the stepper are related except for `m_xerr`, the worlds are related -/
def CoordJ (D : Loc → Prop) (L : V → U) (q : Heap K V W) (q' : Heap K U W) (w : W × Log V K) (w' : W × Log U K) : Prop :=
  ((∀ l, D l → L (q.state l) = q'.state l) ∧ q'.num = q.num ∧ q'.flag = q.flag ∧ q'.nat = q.nat) ∧ w' = mapWorld L w

abbrev coordCtx (W K : Type) (L : V → U) : SimCtx (W × Log V K) (W × Log U K) := plainCtx fun w w' => w' = mapWorld L w

theorem coord_image_eq {α β : Type} {R : α → β → W × Log V K → W × Log U K → Prop} {f : α → β}
    (hR : ∀ a a' w w', R a a' w w' → a' = f a ∧ w' = mapWorld L w)
    {r : Res (W × Log V K) α} {r' : Res (W × Log U K) β} (h : (coordCtx W K L).Rel R r r') :
    r' = r.image f (mapWorld L) := by
  cases h with
  | ok h =>
    obtain ⟨h1, h2⟩ := hR _ _ _ _ h
    rw [h1, h2]; rfl
  | err h => rw [show _ = _ from h]; rfl
  | esc h _ => exact absurd h id
  | ub => rfl
  | div => rfl

theorem sameTime (A : TimeArith K) : TimeRel A A Eq Eq where
  add := by rintro _ _ _ _ rfl rfl; rfl
  grid := by rintro _ _ _ _ n rfl rfl; rfl
  less := by rintro _ _ _ _ _ _ rfl rfl rfl; rfl
  lessEq := by rintro _ _ _ _ _ _ rfl rfl rfl; rfl
  sub := by rintro _ _ _ _ _ _ rfl rfl rfl _; rfl
  minAbs := by rintro _ _ _ _ rfl rfl; rfl
  maxAbs := by rintro _ _ _ _ rfl rfl; rfl

theorem coord_obs_sim (D : Loc → Prop) :
    ObsSim (coordCtx W K L) (CoordJ D L) (fun x y => L x = y) Eq (recordObserver : Observer (W × Log V K) V K) recordObserver where
  call := by
    rintro q q' x _ t _ w _ ⟨hq, rfl⟩ rfl rfl
    refine .ok ⟨hq, ?_⟩
    simp [mapWorld, Log.mapState, Event.mapState]
  mono := by intros; exact plainCtx_mono _ _

theorem CoordJ.full {q : Heap K V W} {q' : Heap K U W} {w : W × Log V K} {w' : W × Log U K} (h : CoordJ (fun _ => True) L q q' w w') (x : V) :
    HeapRel (fun x y => L x = y) (· = ·) ((q.set (.user 0) x).withWorld w.1) ((q'.set (.user 0) (L x)).withWorld w'.1) := by
  obtain ⟨⟨h1, h2, h3, h4⟩, rfl⟩ := h
  refine ⟨fun l => ?_, h2, h3, h4, rfl⟩
  simp only [Heap.withWorld, Heap.set, Function.update_apply]
  split
  · rfl
  · exact h1 l trivial

theorem CoordJ.liveNow {q : Heap K V W} {q' : Heap K U W} {w : W × Log V K} {w' : W × Log U K} (h : CoordJ (· ≠ mXerr) L q q' w w') :
    LiveRel (fun x y => L x = y) (· = ·) (q.withWorld w.1) (q'.withWorld w'.1) := by
  obtain ⟨⟨h1, h2, h3, h4⟩, rfl⟩ := h
  exact ⟨fun l hl => h1 l hl, h2, h3, h4, rfl⟩

theorem CoordJ.live {q : Heap K V W} {q' : Heap K U W} {w : W × Log V K} {w' : W × Log U K} (h : CoordJ (· ≠ mXerr) L q q' w w') (x : V) :
    LiveRel (fun x y => L x = y) (· = ·) ((q.set (.user 0) x).withWorld w.1) ((q'.set (.user 0) (L x)).withWorld w'.1) := by
  obtain ⟨⟨h1, h2, h3, h4⟩, rfl⟩ := h
  refine ⟨fun l hl => ?_, h2, h3, h4, rfl⟩
  simp only [Heap.withWorld, Heap.set, Function.update_apply]
  split
  · rfl
  · exact h1 l hl

theorem coord_basic_sim {p : Loc → K → K → StepM K V W Unit} {p' : Loc → K → K → StepM K U W Unit}
    (h : ∀ t dt, RunRel False (fun x y => L x = y) (· = ·) (p (.user 0) t dt) (p' (.user 0) t dt)) :
    BasicSim (coordCtx W K L) (CoordJ (fun _ => True) L) (fun x y => L x = y) Eq Eq (stepperObject p) (stepperObject p') where
  step := by
    rintro q q' x _ t _ d _ w w' hJ rfl rfl rfl
    have := h t d _ _ (hJ.full x)
    simp only [stepperObject]
    cases hp : p (.user 0) t d ((q.set (.user 0) x).withWorld w.1) with
    | ok a h₁ =>
      rw [hp] at this
      obtain ⟨_, h', e, -, hr⟩ := this
      rw [e]
      exact .ok ⟨⟨⟨fun l _ => hr.state l, hr.num, hr.flag, hr.nat⟩, by rw [hJ.2, mapWorld, mapWorld, ← hr.world]⟩, hr.state _⟩
    | err e h₁ =>
      rw [hp] at this
      obtain hf | ⟨h', e', hr⟩ := this
      · exact hf.elim
      · rw [e']; exact .err (show _ = _ by rw [hJ.2, mapWorld, mapWorld, ← hr.world])
    | ub => rw [hp] at this; rw [this.resolve_left id]; exact .ub
    | div => rw [hp] at this; rw [this.resolve_left id]; exact .div
  mono := by intros; exact plainCtx_mono _ _

theorem coord_ctrl_sim {p : Loc → K → K → StepM K V W (TryOut K)} {p' : Loc → K → K → StepM K U W (TryOut K)}
    (h : ∀ t dt, RunLive False (fun x y => L x = y) (· = ·) (p (.user 0) t dt) (p' (.user 0) t dt)) :
    CtrlSim (coordCtx W K L) (CoordJ (· ≠ mXerr) L) (fun x y => L x = y) Eq Eq (controlledObject p) (controlledObject p') where
  step := by
    rintro q q' x _ t _ d _ w w' hJ rfl rfl rfl
    have := h t d _ _ (hJ.live x)
    simp only [controlledObject]
    cases hp : p (.user 0) t d ((q.set (.user 0) x).withWorld w.1) with
    | ok a h₁ =>
      rw [hp] at this
      obtain ⟨_, h', e, rfl, hr⟩ := this
      rw [e]
      exact .ok ⟨⟨⟨fun l hl => hr.state l hl, hr.num, hr.flag, hr.nat⟩, by rw [hJ.2, mapWorld, mapWorld, ← hr.world]⟩,
        hr.state _ (by simp [mXerr]), rfl, rfl, rfl⟩
    | err e h₁ =>
      rw [hp] at this
      obtain hf | ⟨h', e', hr⟩ := this
      · exact hf.elim
      · rw [e']; exact .err (show _ = _ by rw [hJ.2, mapWorld, mapWorld, ← hr.world])
    | ub => rw [hp] at this; rw [this.resolve_left id]; exact .ub
    | div => rw [hp] at this; rw [this.resolve_left id]; exact .div
  mono := by intros; exact plainCtx_mono _ _

/-- a call that returns nothing of interest -/
theorem coord_call {α : Type} {p : StepM K V W α} {p' : StepM K U W α} (h : RunLive False (fun x y => L x = y) (· = ·) p p')
    {q : Heap K V W} {q' : Heap K U W} (hr : LiveRel (fun x y => L x = y) (· = ·) q q') {w : W × Log V K} {w' : W × Log U K}
    (hw : w' = mapWorld L w) {β γ : Type} {F : Heap K V W → β} {F' : Heap K U W → γ} {R : β → γ → W × Log V K → W × Log U K → Prop}
    (hR : ∀ h h', LiveRel (fun x y => L x = y) (· = ·) h h' → R (F h) (F' h') (h.world, w.2) (h'.world, w'.2)) :
    (coordCtx W K L).Rel R
      (match p q with | .ok _ h => .ok (F h) (h.world, w.2) | .err e h => .err e (h.world, w.2) | .ub => .ub | .div => .div)
      (match p' q' with | .ok _ h => .ok (F' h) (h.world, w'.2) | .err e h => .err e (h.world, w'.2) | .ub => .ub | .div => .div) := by
  have := h _ _ hr
  cases hp : p q with
  | ok a h₁ =>
    rw [hp] at this
    obtain ⟨_, h', e, -, hr⟩ := this
    rw [e]
    exact .ok (hR _ _ hr)
  | err e h₁ =>
    rw [hp] at this
    obtain hf | ⟨h', e', hr⟩ := this
    · exact hf.elim
    · rw [e']; exact .err (show _ = _ by rw [hw, mapWorld, mapWorld, ← hr.world])
  | ub => rw [hp] at this; rw [this.resolve_left id]; exact .ub
  | div => rw [hp] at this; rw [this.resolve_left id]; exact .div

theorem LiveRel.coordJ {h : Heap K V W} {h' : Heap K U W} (hr : LiveRel (fun x y => L x = y) (· = ·) h h') (l : Log V K) :
    CoordJ (· ≠ mXerr) L h h' (h.world, l) (h'.world, l.mapState L) :=
  ⟨⟨fun l hl => hr.state l hl, hr.num, hr.flag, hr.nat⟩, by rw [mapWorld, ← hr.world]⟩

section
variable [Add K] [Sub K] [Mul K] [Div K] [IntCast K] [Neg K] [StateOps K V] [StateOps K U]

theorem plain_rel (hL : LinHom K L) {f : Sys K V W} {g : Sys K U W} (hfg : Intertwines L f g) (s : PlainStepper K) (x : Loc) (t dt : K) :
    RunRel False (fun x y => L x = y) (· = ·) (s.doStep f x t dt) (s.doStep g x t dt) := by
  cases s with
  | explicit s => exact (RunRel.callSys hfg.rel _ _ _).bind fun _ => initStepper_rel hL.closed hfg.rel _ _ _ _ _ _
  | dopri5 r => exact (fsalPrepare_rel hfg.rel _ _ _).bind fun _ => dopri5_rel hL.closed hfg.rel _ _ _ _ _ _
  | adams N init r => exact abStep_rel hL.closed hfg.rel _ _ _ _ _ _ _ _
  | adamsMoulton N init r => exact abmStep_rel hL.closed hfg.rel _ _ _ _ _ _ _ _ _

theorem controlled_live (hL : LinHom K L) {f : Sys K V W} {g : Sys K U W} (hfg : Intertwines L f g) {P : CtrlParams K V} {P' : CtrlParams K U}
    (hP : SameVerdicts L P P') (s : ControlledRkStepper K) (n : ℕ) (t dt : K) :
    RunLive False (fun x y => L x = y) (· = ·) (s.tryStep P f (.user n) t dt) (s.tryStep P' g (.user n) t dt) := by
  cases s with
  | explicit s => exact tryStep1_live hL.closed hfg.rel hP s (by simp [mXerr]) _ _
  | dopri5 r => exact fsalTry1_live hL.closed hfg.rel hP r (by simp [mXerr]) _ _

theorem coord_dense_sim (hL : LinHom K L) {f : Sys K V W} {g : Sys K U W} (hfg : Intertwines L f g) {P : CtrlParams K V} {P' : CtrlParams K U}
    (hP : SameVerdicts L P P') :
    DenseSim (coordCtx W K L) (CoordJ (· ≠ mXerr) L) (fun x y => L x = y) Eq Eq (denseObject P f) (denseObject P' g) where
  init := by
    rintro q q' x _ t _ d _ w w' hJ rfl rfl rfl
    obtain rfl := hJ.2
    exact coord_call (fsalDenseInit_live (by simp [mXerr]) t d) (hJ.live x) rfl (F := id) (F' := id) fun h h' hr => hr.coordJ w.2
  step := by
    rintro q q' w w' hJ
    obtain rfl := hJ.2
    have := coord_call (fsalDenseDoStep_live hL.closed hfg.rel hP) hJ.liveNow rfl (F := id) (F' := id) (R := CoordJ (· ≠ mXerr) L)
      fun h h' hr => hr.coordJ w.2
    simp only [denseObject]
    revert this
    generalize fsalDenseDoStep P dopri5ErrImpl f (q.withWorld w.1) = r
    generalize fsalDenseDoStep P' dopri5ErrImpl g (q'.withWorld (mapWorld L w).1) = r'
    cases r <;> cases r' <;> exact id
  calc_state := by
    rintro q q' t _ w w' hJ rfl
    obtain ⟨hq, rfl⟩ := hJ
    refine coord_call (fsalDenseCalcState_live hL.closed t (.user 0)) (CoordJ.liveNow ⟨hq, rfl⟩) rfl (F := fun h => h.state (.user 0))
      (F' := fun h => h.state (.user 0)) fun h h' hr => ⟨⟨hq, ?_⟩, hr.state _ (by simp [mXerr])⟩
    rw [mapWorld, ← hr.world]; rfl
  curState := by
    rintro q q' w w' ⟨⟨h1, h2, h3, h4⟩, -⟩
    simp only [denseObject, currentState, h3]
    exact h1 _ (getCurrent_ne _)
  curTime := by
    rintro q q' w w' ⟨⟨h1, h2, h3, h4⟩, -⟩
    simp only [denseObject, currentTime, h2]
  curDt := by
    rintro q q' w w' ⟨⟨h1, h2, h3, h4⟩, -⟩
    simp only [denseObject, currentTimeStep, h2]
  mono_init := by intros; exact plainCtx_mono _ _
  mono_step := by intros; exact plainCtx_mono _ _
  mono_calc := by intros; exact plainCtx_mono _ _

/-- **C85** (plain steppers).  Let `L` commute with linear combinations and let `g` be the right-hand side `f` in the coordinates `L x`.  Then every
integration with `g` is the image of the integration with `f`.  The arithmetic of times and of values is arbitrary. -/
theorem integrate_commutes (A : TimeArith K) (hL : LinHom K L) {f : Sys K V W} {g : Sys K U W} (hfg : Intertwines L f g) (s : PlainStepper K)
    (q : Heap K V W) : AlikeBasic L A (stepperObject (s.doStep f)) (stepperObject (s.doStep g)) q (q.map L) := by
  intro x t0 t1 dt n l w
  have hA := sameTime A
  have hst := coord_basic_sim (plain_rel hL hfg s (.user 0))
  have ho := coord_obs_sim (W := W) (K := K) (L := L) fun _ => True
  have hJ : CoordJ (fun _ => True) L q (q.map L) w (mapWorld L w) := ⟨⟨fun _ _ => rfl, rfl, rfl, rfl⟩, rfl⟩
  have hl : List.Forall₂ Eq l l := List.forall₂_same.mpr fun _ _ => rfl
  refine ⟨coord_image_eq ?_ (integrateNStepsBasic_sim hA hst ho n hJ rfl rfl rfl),
    coord_image_eq ?_ (integrateConstBasic_sim hA hst ho (fun _ _ => False)
      (fun _ _ _ _ _ _ h _ => h.elim) hJ rfl rfl rfl rfl),
    coord_image_eq ?_ (integrateAdaptiveBasic_sim hA hst ho (fun _ _ _ _ h => ⟨hJ.1, h.2⟩) hJ rfl rfl rfl
      rfl), coord_image_eq ?_ (integrateTimesBasic_sim hA hst ho hl hJ rfl rfl)⟩
  · rintro ⟨_, _⟩ ⟨_, _⟩ p p' ⟨⟨_, _, _, h⟩, h1, h2⟩; exact ⟨Prod.ext h1.symm h2.symm, h⟩
  · rintro ⟨_, _⟩ ⟨_, _⟩ p p' ⟨⟨_, _, _, h⟩, -, h1, h2⟩; exact ⟨Prod.ext h1.symm h2.symm, h⟩
  · rintro ⟨_, _⟩ ⟨_, _⟩ p p' ⟨⟨_, _, _, h⟩, h1, h2⟩; exact ⟨Prod.ext h1.symm h2.symm, h⟩
  · rintro ⟨_, _⟩ ⟨_, _⟩ p p' ⟨⟨_, _, _, h⟩, h1, h2⟩; exact ⟨Prod.ext h1.symm h2.symm, h⟩

/-- **C85** (controlled Runge-Kutta steppers): in addition the error checkers return the same numbers in both coordinates. -/
theorem integrate_controlled_commutes (A : TimeArith K) (hL : LinHom K L) {f : Sys K V W} {g : Sys K U W} (hfg : Intertwines L f g)
    {P : CtrlParams K V} {P' : CtrlParams K U} (hP : SameVerdicts L P P') (s : ControlledRkStepper K) (q : Heap K V W) :
    AlikeControlled L A (controlledObject (s.tryStep P f)) (controlledObject (s.tryStep P' g)) q (q.map L) := by
  intro x t0 t1 dt n l w
  have hA := sameTime A
  have hst := coord_ctrl_sim (controlled_live hL hfg hP s 0)
  have ho := coord_obs_sim (W := W) (K := K) (L := L) (· ≠ mXerr)
  have hJ : CoordJ (· ≠ mXerr) L q (q.map L) w (mapWorld L w) := ⟨⟨fun _ _ => rfl, rfl, rfl, rfl⟩, rfl⟩
  have hl : List.Forall₂ Eq l l := List.forall₂_same.mpr fun _ _ => rfl
  have hE : ∀ (q : Heap K V W) (q' : Heap K U W) w w', CoordJ (· ≠ mXerr) L q q' w w' → (coordCtx W K L).RE w w' := fun _ _ _ _ h => h.2
  have hcp : ∀ (a : Heap K V W) (a' : Heap K U W) w w', CoordJ (· ≠ mXerr) L a a' w w' → CoordJ (· ≠ mXerr) L q (q.map L) w w' :=
    fun _ _ _ _ h => ⟨hJ.1, h.2⟩
  refine ⟨coord_image_eq ?_ (integrateNStepsControlled_sim hA hE hst ho n hcp hJ rfl rfl rfl),
    coord_image_eq ?_ (integrateConstControlled_sim hA hE hst ho hcp hJ rfl rfl rfl rfl),
    coord_image_eq ?_ (integrateAdaptiveControlled_sim hA hE hst ho hJ rfl rfl rfl rfl),
    coord_image_eq ?_ (integrateTimesControlled_sim hA hE hst ho hl hJ rfl rfl)⟩
  · rintro ⟨_, _⟩ ⟨_, _⟩ p p' ⟨⟨_, _, _, h⟩, h1, h2⟩; exact ⟨Prod.ext h1.symm h2.symm, h⟩
  · rintro ⟨_, _⟩ ⟨_, _⟩ p p' ⟨⟨_, _, _, h⟩, h1, h2⟩; exact ⟨Prod.ext h1.symm h2.symm, h⟩
  · rintro ⟨_, _, _, _⟩ ⟨_, _, _, _⟩ p p' ⟨⟨_, _, _, h⟩, h1, h2, h3, h4⟩
    simp only at h1 h2 h3 h4
    subst h1; subst h2; subst h3; subst h4
    exact ⟨rfl, h⟩
  · rintro ⟨_, _⟩ ⟨_, _⟩ p p' ⟨⟨_, _, _, h⟩, h1, h2⟩; exact ⟨Prod.ext h1.symm h2.symm, h⟩

/-- **C85** (dense output with `runge_kutta_dopri5`). -/
theorem integrate_dense_commutes (A : TimeArith K) (hL : LinHom K L) {f : Sys K V W} {g : Sys K U W} (hfg : Intertwines L f g)
    {P : CtrlParams K V} {P' : CtrlParams K U} (hP : SameVerdicts L P P') (q : Heap K V W) :
    AlikeDense L A (denseObject P f) (denseObject P' g) q (q.map L) := by
  intro x t0 t1 dt n l w
  have hA := sameTime A
  have hst := coord_dense_sim (W := W) hL hfg hP
  have ho := coord_obs_sim (W := W) (K := K) (L := L) (· ≠ mXerr)
  have hJ : CoordJ (· ≠ mXerr) L q (q.map L) w (mapWorld L w) := ⟨⟨fun _ _ => rfl, rfl, rfl, rfl⟩, rfl⟩
  have h0 := hst.init (x := x) (t := t0) (d := dt) hJ rfl rfl rfl
  refine ⟨?_, ?_, ?_, ?_⟩
  · refine coord_image_eq ?_ (integrateNStepsDense_sim hA ?_ ?_ hst ho n h0 rfl rfl rfl)
    · rintro ⟨_, _⟩ ⟨_, _⟩ p p' ⟨⟨_, _, _, h⟩, h1, h2⟩; exact ⟨Prod.ext h1.symm h2.symm, h⟩
    · rintro _ _ _ _ rfl rfl; rfl
    · rintro _ _ _ _ rfl rfl; rfl
  · refine coord_image_eq ?_ (integrateConstDense_sim hA hst ho h0 rfl rfl rfl rfl)
    rintro ⟨_, _⟩ ⟨_, _⟩ p p' ⟨⟨_, _, _, h⟩, h1, h2⟩; exact ⟨Prod.ext h1.symm h2.symm, h⟩
  · refine coord_image_eq ?_ (integrateAdaptiveDense_sim (A := A) (A' := A) (e := t1) (e' := t1)
      (JR := CoordJ (· ≠ mXerr) L) (JR2 := CoordJ (· ≠ mXerr) L) (RS := fun x y => L x = y) ?_ (fun _ _ _ _ h _ => h) ?_
      (fun q q' w w' h _ => hst.step h) ?_ ?_ ?_ (fun _ _ _ _ h => hst.curState h) hst.mono_init hst.mono_step
      (fun _ _ => plainCtx_mono _ _) h0)
    · rintro ⟨_, _⟩ ⟨_, _⟩ p p' ⟨⟨_, _, _, h⟩, h1, h2⟩; exact ⟨Prod.ext h1.symm h2.symm, h⟩
    · intro q q' w w' h
      exact hA.less (hst.curTime h) rfl (hst.curDt h)
    · intro q q' w w' h
      exact hA.lessEq (hA.add (hst.curTime h) (hst.curDt h)) rfl (hst.curDt h)
    · intro q q' w w' h _
      exact hst.init h (hst.curState h) (hst.curTime h) (by rw [hst.curTime h])
    · intro q q' w w' h
      exact ho.call h (hst.curState h) (hst.curTime h)
    · intro q q' w w' h
      exact ho.call h (hst.curState h) (hst.curTime h)
  · cases l with
    | nil => rfl
    | cons s0 l =>
      refine coord_image_eq ?_ (integrateTimesDense_sim (A := A) (A' := A) (JR := CoordJ (· ≠ mXerr) L) (RS := fun x y => L x = y) (RT := Eq)
        ?_ ?_ (fun q q' w w' h => hst.step h) ?_ ?_ ho (fun _ _ _ _ => plainCtx_mono _ _) (fun _ => plainCtx_mono _ _)
        (fun _ _ => plainCtx_mono _ _) rfl rfl (List.forall₂_same.mpr fun _ _ => rfl) (hst.init hJ rfl rfl rfl))
      · rintro ⟨_, _⟩ ⟨_, _⟩ p p' ⟨⟨_, _, _, h⟩, h1, h2⟩; exact ⟨Prod.ext h1.symm h2.symm, h⟩
      · rintro q q' w w' τ _ h rfl _
        exact hA.lessEq rfl (hst.curTime h) (hst.curDt h)
      · intro q q' w w' h
        exact hA.lessEq (hA.add (hst.curTime h) (hst.curDt h)) rfl (hst.curDt h)
      · rintro q q' w w' τ _ h rfl
        exact hst.calc_state h rfl
      · intro q q' w w' τ l' h _ _
        exact hst.init h (hst.curState h) (hst.curTime h) (by rw [hst.curTime h])

end

/-! ## The default error checker -/

section
variable {d : ℕ}

theorem otherUnits_linHom (s : Fin d → ℝ) (e : Equiv.Perm (Fin d)) : LinHom ℝ (otherUnits s e) := by
  let F : (Fin d → ℝ) →ₗ[ℝ] Fin d → ℝ :=
    { toFun := otherUnits s e
      map_add' := fun x y => by funext j; simp only [otherUnits, Pi.add_apply]; ring
      map_smul' := fun c x => by funext j; simp only [otherUnits, Pi.smul_apply, smul_eq_mul, RingHom.id_apply]; ring }
  exact linear_linHom F

/-- what the default error checker returns, as a function of the set of the weights of the components -/
theorem Tolerances.checker_value (τ : Tolerances) (x k e : Fin d → ℝ) (dt : ℝ) :
    ((τ.checker d).error x k e dt).2 =
      checkerValue 0 τ.absolute τ.relative τ.aX τ.aDxdt dt (List.ofFn fun i => (⟨e i, x i, k i⟩ : Component)) := by
  simp only [Tolerances.checker, checkerValue, List.map_ofFn]
  rfl

theorem otherUnits_weight (s : Fin d → ℝ) (e : Equiv.Perm (Fin d)) (hs : ∀ j, s j ≠ 0) (τ τ' : Tolerances)
    (ha : ∀ j, τ'.absolute = |s j| * τ.absolute) (hr : τ'.relative = τ.relative) (hx : τ'.aX = τ.aX) (hk : τ'.aDxdt = τ.aDxdt) (dt : ℝ)
    (x k v : Fin d → ℝ) (j : Fin d) :
    Component.weight τ'.absolute τ'.relative τ'.aX τ'.aDxdt dt ⟨otherUnits s e v j, otherUnits s e x j, otherUnits s e k j⟩ =
      Component.weight τ.absolute τ.relative τ.aX τ.aDxdt dt ⟨v (e j), x (e j), k (e j)⟩ := by
  have h0 : |s j| ≠ 0 := abs_ne_zero.2 (hs j)
  simp only [Component.weight, otherUnits, ha j, hr, hx, hk, abs_mul]
  rw [show |s j| * τ.absolute + τ.relative * (τ.aX * (|s j| * |x (e j)|) + τ.aDxdt * |dt| * (|s j| * |k (e j)|)) =
    |s j| * (τ.absolute + τ.relative * (τ.aX * |x (e j)| + τ.aDxdt * |dt| * |k (e j)|)) by ring, mul_div_mul_left _ _ h0]

/-- If the absolute tolerance is measured in the new unit, the default error checker returns the same numbers.  (If the components are measured in
different units, this requires the absolute tolerance zero.) -/
theorem otherUnits_same_verdicts (s : Fin d → ℝ) (e : Equiv.Perm (Fin d)) (hs : ∀ j, s j ≠ 0) (τ τ' : Tolerances) (h0 : 0 ≤ τ.absolute)
    (h0' : 0 ≤ τ'.absolute) (ha : ∀ j, τ'.absolute = |s j| * τ.absolute) (hr : τ'.relative = τ.relative) (hx : τ'.aX = τ.aX)
    (hk : τ'.aDxdt = τ.aDxdt) (hr0 : 0 ≤ τ.relative) (hx0 : 0 ≤ τ.aX) (hk0 : 0 ≤ τ.aDxdt) (p q : ℕ) (maxDt : ℝ) :
    SameVerdicts (otherUnits s e) (τ.controlUpTo d p q maxDt) (τ'.controlUpTo d p q maxDt) where
  gtOne := rfl
  adjuster := rfl
  stepperOrder := rfl
  errorOrder := rfl
  checker x k v dt := by
    show ((τ'.checker d).error _ _ _ dt).2 = ((τ.checker d).error _ _ _ dt).2
    rw [τ.checker_value, τ'.checker_value]
    have G := error_checker_norm (eps := 0) τ.absolute τ.relative τ.aX τ.aDxdt dt h0 hr0 hx0 hk0
      (List.ofFn fun i => (⟨v i, x i, k i⟩ : Component))
    have G' := error_checker_norm (eps := 0) τ'.absolute τ'.relative τ'.aX τ'.aDxdt dt h0' (hr ▸ hr0) (hx ▸ hx0) (hk ▸ hk0)
      (List.ofFn fun i => (⟨otherUnits s e v i, otherUnits s e x i, otherUnits s e k i⟩ : Component))
    have key : (insert 0 {w | ∃ c ∈ List.ofFn fun i => (⟨otherUnits s e v i, otherUnits s e x i, otherUnits s e k i⟩ : Component),
        w = c.weight τ'.absolute τ'.relative τ'.aX τ'.aDxdt dt} : Set ℝ) =
        insert 0 {w | ∃ c ∈ List.ofFn fun i => (⟨v i, x i, k i⟩ : Component), w = c.weight τ.absolute τ.relative τ.aX τ.aDxdt dt} := by
      congr 1
      ext w
      constructor
      · rintro ⟨c, hc, rfl⟩
        obtain ⟨j, rfl⟩ := List.mem_ofFn.1 hc
        exact ⟨_, List.mem_ofFn.2 ⟨e j, rfl⟩, otherUnits_weight s e hs τ τ' ha hr hx hk dt x k v j⟩
      · rintro ⟨c, hc, rfl⟩
        obtain ⟨j, rfl⟩ := List.mem_ofFn.1 hc
        refine ⟨_, List.mem_ofFn.2 ⟨e.symm j, rfl⟩, ?_⟩
        rw [otherUnits_weight s e hs τ τ' ha hr hx hk dt x k v]
        simp
    rw [key] at G'
    exact G'.unique G

/-- **C85.**  The components of the state are renumbered and measured in other units, and the absolute tolerance as well.  Then the integrate
functions, with the plain steppers, with controlled Runge-Kutta steppers with the default error checker and step adjuster, and with dense output,
make the same steps and observe the same states, in the new units. -/
theorem units_of_state {W : Type} (A : TimeArith ℝ) (s : Fin d → ℝ) (e : Equiv.Perm (Fin d)) (hs : ∀ j, s j ≠ 0) (τ τ' : Tolerances)
    (h0 : 0 ≤ τ.absolute) (h0' : 0 ≤ τ'.absolute) (ha : ∀ j, τ'.absolute = |s j| * τ.absolute) (hr : τ'.relative = τ.relative)
    (hx : τ'.aX = τ.aX) (hk : τ'.aDxdt = τ.aDxdt) (hr0 : 0 ≤ τ.relative) (hx0 : 0 ≤ τ.aX) (hk0 : 0 ≤ τ.aDxdt)
    {f g : Sys ℝ (Fin d → ℝ) W} (hfg : Intertwines (otherUnits s e) f g) (plain : PlainStepper ℝ) (ctrl : ControlledRkStepper ℝ) (p q : ℕ)
    (maxDt : ℝ) (st : Heap ℝ (Fin d → ℝ) W) :
    let L := otherUnits s e
    let P := τ.controlUpTo d p q maxDt
    let P' := τ'.controlUpTo d p q maxDt
    AlikeBasic L A (stepperObject (plain.doStep f)) (stepperObject (plain.doStep g)) st (st.map L) ∧
    AlikeControlled L A (controlledObject (ctrl.tryStep P f)) (controlledObject (ctrl.tryStep P' g)) st (st.map L) ∧
    AlikeDense L A (denseObject P f) (denseObject P' g) st (st.map L) := by
  intro L P P'
  have hL := otherUnits_linHom s e
  have hP := otherUnits_same_verdicts s e hs τ τ' h0 h0' ha hr hx hk hr0 hx0 hk0 p q maxDt
  exact ⟨integrate_commutes A hL hfg plain st, integrate_controlled_commutes A hL hfg hP ctrl st, integrate_dense_commutes A hL hfg hP st⟩

/-- The hypotheses are met: a pendulum with position in metres or millimetres and the components exchanged; the default tolerances. -/
example : ∃ (f g : Sys ℝ (Fin 2 → ℝ) Unit) (s : Fin 2 → ℝ) (τ τ' : Tolerances),
    (∀ x t, f x t () = .ok ![x 1, -x 0 ^ 3] ()) ∧ (∀ y t, g y t () = .ok ![-1000 * (y 1 / 1000) ^ 3, y 0] ()) ∧
    Intertwines (otherUnits s (Equiv.swap 0 1)) f g ∧ (∀ j, s j ≠ 0) ∧ τ.Valid ∧ τ'.Valid ∧ (∀ j, τ'.absolute = |s j| * τ.absolute) ∧
    τ'.relative = τ.relative ∧ τ'.aX = τ.aX ∧ τ'.aDxdt = τ.aDxdt := by
  refine ⟨fun x t _ => .ok ![x 1, -x 0 ^ 3] (), fun y t _ => .ok ![-1000 * (y 1 / 1000) ^ 3, y 0] (), fun _ => 1000,
    ⟨1 / 10 ^ 6, 1 / 10 ^ 6, 1, 1⟩, ⟨1 / 10 ^ 3, 1 / 10 ^ 6, 1, 1⟩, fun _ _ => rfl, fun _ _ => rfl, ?_, by norm_num, ⟨?_, ?_, ?_, ?_⟩,
    ⟨?_, ?_, ?_, ?_⟩, ?_, rfl, rfl, rfl⟩
  · intro x t w
    simp only [Res.ok.injEq, and_true]
    funext j
    fin_cases j <;> simp [otherUnits]
  all_goals norm_num

end
end Verif
