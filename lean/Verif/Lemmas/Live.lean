import Verif.Spec.Coordinates
import Verif.Lemmas.Relational

/-! # Related runs up to the contents of the member for the error

The error checkers overwrite the error estimate by dimensionless numbers; it is not read before it is assigned again. -/

set_option linter.unusedSectionVars false

namespace Verif
variable {K V U W X α β : Type} {lax : Prop} {S : V → U → Prop} {T : W → X → Prop}

/-- related states, except for `m_xerr` -/
structure LiveRel (S : V → U → Prop) (T : W → X → Prop) (h : Heap K V W) (h' : Heap K U X) : Prop where
  state : ∀ l, l ≠ mXerr → S (h.state l) (h'.state l)
  num : h'.num = h.num
  flag : h'.flag = h.flag
  nat : h'.nat = h.nat
  world : T h.world h'.world

def RunLive (lax : Prop) (S : V → U → Prop) (T : W → X → Prop) (p : StepM K V W α) (q : StepM K U X α) : Prop :=
  ∀ h h', LiveRel S T h h' → ResRel lax (· = ·) (LiveRel S T) (p h) (q h')

theorem RunLive.bind {p : StepM K V W α} {q : StepM K U X α} {p' : α → StepM K V W β} {q' : α → StepM K U X β} (h1 : RunLive lax S T p q)
    (h2 : ∀ a, RunLive lax S T (p' a) (q' a)) : RunLive lax S T (p >>= p') (q >>= q') := by
  intro h h' hr
  have := h1 h h' hr
  rw [M.bind_apply, M.bind_apply]
  cases hp : p h with
  | ok a h₁ =>
    rw [hp] at this
    obtain ⟨b, h₁', e, rfl, hr'⟩ := this
    rw [e]
    exact h2 a h₁ h₁' hr'
  | err e h₁ =>
    rw [hp] at this
    rcases this with hl | ⟨h₁', e', hr'⟩
    · exact Or.inl hl
    · rw [e']; exact Or.inr ⟨h₁', rfl, hr'⟩
  | ub =>
    rw [hp] at this
    rcases this with hl | e'
    · exact Or.inl hl
    · rw [e']; exact Or.inr rfl
  | div =>
    rw [hp] at this
    rcases this with hl | e'
    · exact Or.inl hl
    · rw [e']; exact Or.inr rfl

theorem RunLive.pure (a : α) : RunLive lax S T (pure a : StepM K V W α) (pure a) := fun _ h' hr => ⟨a, h', rfl, rfl, hr⟩

theorem LiveRel.set {h : Heap K V W} {h' : Heap K U X} (hr : LiveRel S T h h') (l : Loc) {v : V} {u : U} (hv : S v u) :
    LiveRel S T (h.set l v) (h'.set l u) where
  state l' hl := by
    simp only [Heap.set, Function.update_apply]
    split
    · exact hv
    · exact hr.state l' hl
  num := hr.num
  flag := hr.flag
  nat := hr.nat
  world := hr.world

theorem RunLive.callSys {f : Sys K V W} {g : Sys K U X} (hs : SysRel lax S T f g) {src : Loc} (hsrc : src ≠ mXerr) (dst : Loc) (t : K) :
    RunLive lax S T (callSys f src dst t) (callSys g src dst t) := by
  intro h h' hr
  have := hs _ _ t _ _ (hr.state src hsrc) hr.world
  unfold Verif.callSys
  cases hf : f (h.state src) t h.world with
  | ok v w =>
    rw [hf] at this
    obtain ⟨u, x, e, hv, hw⟩ := this
    rw [e]
    refine ⟨(), _, rfl, rfl, ⟨fun l hl => ?_, hr.num, hr.flag, hr.nat, hw⟩⟩
    simp only [Heap.put, Function.update_apply]
    split
    · exact hv
    · exact hr.state l hl
  | err e w =>
    rw [hf] at this
    rcases this with hl | ⟨x, e', hw⟩
    · exact Or.inl hl
    · rw [e']; exact Or.inr ⟨_, rfl, ⟨hr.state, hr.num, hr.flag, hr.nat, hw⟩⟩
  | ub =>
    rw [hf] at this
    rcases this with hl | e'
    · exact Or.inl hl
    · rw [e']; exact Or.inr rfl
  | div =>
    rw [hf] at this
    rcases this with hl | e'
    · exact Or.inl hl
    · rw [e']; exact Or.inr rfl

theorem LinClosed.live [StateOps K V] [StateOps K U] (hS : LinClosed K S) {h : Heap K V W} {h' : Heap K U X} (hr : LiveRel S T h h')
    (l : List (K × Loc)) (hl : ∀ p ∈ l, p.2 ≠ mXerr) :
    S (lin (l.map fun p => (p.1, h.state p.2))) (lin (l.map fun p => (p.1, h'.state p.2))) := by
  have := hS (l.map fun p => (p.1, h.state p.2, h'.state p.2)) (by
    intro p hp
    obtain ⟨q, hq, rfl⟩ := List.mem_map.1 hp
    exact hr.state q.2 (hl q hq))
  simpa only [List.map_map, Function.comp_def] using this

theorem RunLive.linTo [StateOps K V] [StateOps K U] (hS : LinClosed K S) (dst : Loc) (l : List (K × Loc)) (hl : ∀ p ∈ l, p.2 ≠ mXerr) :
    RunLive lax S T (linTo dst l) (linTo dst l) := fun _ _ hr => ⟨(), _, rfl, rfl, hr.set dst (hS.live hr l hl)⟩

theorem RunLive.copyTo {src : Loc} (hs : src ≠ mXerr) (dst : Loc) : RunLive (K := K) lax S T (copyTo src dst) (copyTo src dst) :=
  fun _ _ hr => ⟨(), _, rfl, rfl, hr.set dst (hr.state src hs)⟩

theorem RunLive.setFlag (l : Loc) (b : Bool) : RunLive (K := K) lax S T (setFlag l b) (setFlag l b) := fun _ _ hr =>
  ⟨(), _, rfl, rfl, ⟨hr.state, hr.num, by simp only [Heap.putFlag, hr.flag], hr.nat, hr.world⟩⟩

theorem RunLive.getFlag (l : Loc) : RunLive (K := K) lax S T (getFlag l) (getFlag l) := fun _ _ hr =>
  ⟨_, _, rfl, by rw [hr.flag], hr⟩

theorem RunLive.setNum (l : Loc) (a : K) : RunLive lax S T (setNum l a) (setNum l a) := fun _ _ hr =>
  ⟨(), _, rfl, rfl, ⟨hr.state, by simp only [Heap.putNum, hr.num], hr.flag, hr.nat, hr.world⟩⟩

theorem RunLive.getNum (l : Loc) : RunLive (K := K) lax S T (getNum l) (getNum l) := fun _ _ hr =>
  ⟨_, _, rfl, by rw [hr.num], hr⟩

theorem RunLive.ite {c : Prop} [Decidable c] {p p' : StepM K V W α} {q q' : StepM K U X α} (h1 : RunLive lax S T p q)
    (h2 : RunLive lax S T p' q') : RunLive lax S T (if c then p else p') (if c then q else q') := by
  split
  · exact h1
  · exact h2

theorem failedStepChecker_live (m n : ℕ) : RunLive (K := K) lax S T (failedStepChecker m n) (failedStepChecker m n) := by
  intro h h' hr
  unfold failedStepChecker
  split
  · exact Or.inr ⟨_, rfl, hr⟩
  · exact ⟨_, _, rfl, rfl, hr⟩

theorem whileF_live {σ : Type} {cond : σ → Bool} {p : σ → StepM K V W σ} {q : σ → StepM K U X σ} (hb : ∀ s, RunLive False S T (p s) (q s)) (n : ℕ) :
    ∀ s (h : Heap K V W) (h' : Heap K U X), LiveRel S T h h' →
      (whileF cond p n s h = none → whileF cond q n s h' = none) ∧
      ∀ r, whileF cond p n s h = some r → ∃ r', whileF cond q n s h' = some r' ∧ ResRel False (· = ·) (LiveRel S T) r r' := by
  induction n with
  | zero => exact fun s h h' _ => ⟨fun _ => rfl, fun r hr => by simp [whileF] at hr⟩
  | succ n ih =>
    intro s h h' hr
    simp only [whileF]
    by_cases hc : cond s = true
    · rw [if_pos hc, if_pos hc]
      have := hb s h h' hr
      cases hp : p s h with
      | ok a h₁ =>
        rw [hp] at this
        obtain ⟨b, h₁', e, rfl, hr'⟩ := this
        rw [e]
        exact ih a h₁ h₁' hr'
      | err e h₁ =>
        rw [hp] at this
        refine ⟨fun hn => by simp at hn, fun r hr => ?_⟩
        obtain rfl := Option.some.inj hr
        rcases this with hl | ⟨h₁', e', hr'⟩
        · exact hl.elim
        · rw [e']; exact ⟨_, rfl, Or.inr ⟨_, rfl, hr'⟩⟩
      | ub =>
        rw [hp] at this
        refine ⟨fun hn => by simp at hn, fun r hr => ?_⟩
        obtain rfl := Option.some.inj hr
        rcases this with hl | e'
        · exact hl.elim
        · rw [e']; exact ⟨_, rfl, Or.inr rfl⟩
      | div =>
        rw [hp] at this
        refine ⟨fun hn => by simp at hn, fun r hr => ?_⟩
        obtain rfl := Option.some.inj hr
        rcases this with hl | e'
        · exact hl.elim
        · rw [e']; exact ⟨_, rfl, Or.inr rfl⟩
    · rw [if_neg hc, if_neg hc]
      refine ⟨fun hn => by simp at hn, fun r hr' => ?_⟩
      obtain rfl := Option.some.inj hr'
      exact ⟨_, rfl, s, h', rfl, rfl, hr⟩

theorem RunLive.whileM {σ : Type} {cond : σ → Bool} {p : σ → StepM K V W σ} {q : σ → StepM K U X σ} (hb : ∀ s, RunLive False S T (p s) (q s)) (s : σ) :
    RunLive False S T (whileM cond p s) (whileM cond q s) := by
  intro h h' hr
  rcases whileM_div_or (cond := cond) (body := p) s h with ⟨n, hn⟩ | ⟨hn, hd⟩
  · obtain ⟨r', hr', hrel⟩ := (whileF_live (cond := cond) hb n s h h' hr).2 _ hn
    rw [whileM_eq_of_whileF hr']; exact hrel
  · rw [hd]
    right
    rcases whileM_div_or (cond := cond) (body := q) s h' with ⟨n, hq⟩ | ⟨_, hd'⟩
    · rw [(whileF_live (cond := cond) hb n s h h' hr).1 (hn n)] at hq; cases hq
    · exact hd'

section
variable [Add K] [Sub K] [Mul K] [Div K] [IntCast K] [Neg K] [StateOps K V] [StateOps K U] {f : Sys K V W} {g : Sys K U X}

theorem zip_ne {l : List K} {s : List Loc} (h : ∀ a ∈ s, a ≠ mXerr) : ∀ p ∈ l.zip s, p.2 ≠ mXerr := fun p hp =>
  h _ (List.of_mem_zip hp).2

theorem stageArgs_ne {dxdt : Loc} (hd : dxdt ≠ mXerr) (n : ℕ) : ∀ a ∈ stageArgs dxdt n, a ≠ mXerr := by
  intro a ha
  unfold stageArgs at ha
  rcases List.mem_cons.1 ha with rfl | ha
  · exact hd
  · obtain ⟨i, -, rfl⟩ := List.mem_map.1 ha
    simp [mF, mXerr]

theorem cons_ne {a : K × Loc} {l : List (K × Loc)} (ha : a.2 ≠ mXerr) (hl : ∀ p ∈ l, p.2 ≠ mXerr) : ∀ p ∈ a :: l, p.2 ≠ mXerr := by
  intro p hp
  rcases List.mem_cons.1 hp with rfl | hp
  · exact ha
  · exact hl p hp

theorem calculateStage_live (hS : LinClosed K S) (hs : SysRel lax S T f g) (count n : ℕ) (st : K × List K) {inp dxdt : Loc} (hi : inp ≠ mXerr)
    (hd : dxdt ≠ mXerr) (t : K) (out : Loc) (dt : K) :
    RunLive lax S T (calculateStage f count n st inp dxdt t out dt) (calculateStage g count n st inp dxdt t out dt) := by
  have hl : ∀ p ∈ (lit 1, inp) :: (st.2.map (· * dt)).zip (stageArgs dxdt n), p.2 ≠ mXerr :=
    cons_ne hi (zip_ne (stageArgs_ne hd n))
  have a2 : RunLive lax S T (if n < count then linTo mXTmp ((lit 1, inp) :: (st.2.map (· * dt)).zip (stageArgs dxdt n))
      else linTo out ((lit 1, inp) :: (st.2.map (· * dt)).zip (stageArgs dxdt n)) : StepM K V W Unit)
      (if n < count then linTo mXTmp ((lit 1, inp) :: (st.2.map (· * dt)).zip (stageArgs dxdt n))
      else linTo out ((lit 1, inp) :: (st.2.map (· * dt)).zip (stageArgs dxdt n))) :=
    RunLive.ite (RunLive.linTo hS _ _ hl) (RunLive.linTo hS _ _ hl)
  unfold calculateStage
  exact RunLive.ite ((RunLive.callSys hs (by simp [mXTmp, mXerr]) _ _).bind fun _ => a2) a2

theorem runStages_live (hS : LinClosed K S) (hs : SysRel lax S T f g) (count : ℕ) {inp dxdt : Loc} (hi : inp ≠ mXerr)
    (hd : dxdt ≠ mXerr) (t : K) (out : Loc) (dt : K)
    (l : List (K × List K)) : ∀ n, RunLive lax S T (runStages f count inp dxdt t out dt n l) (runStages g count inp dxdt t out dt n l) := by
  induction l with
  | nil => exact fun n => RunLive.pure ()
  | cons st rest ih => exact fun n => (calculateStage_live hS hs count n st hi hd t out dt).bind fun _ => ih (n + 1)

/-- closes goals about straight-line programs whose sources are not `m_xerr` -/
macro "run_live" hS:ident hs:ident : tactic => `(tactic| repeat' first
  | exact RunLive.callSys $hs (by simp_all [mXTmp, mXerr]) _ _
  | exact RunLive.linTo $hS _ _ (by simp_all [mXTmp, mXerr, mK])
  | exact RunLive.copyTo (by simp_all [mXerr]) _
  | exact RunLive.pure _
  | (refine RunLive.bind ?_ fun _ => ?_))

theorem cashKarp_live (hS : LinClosed K S) (hs : SysRel lax S T f g) {inp dxdt : Loc} (hi : inp ≠ mXerr) (hd : dxdt ≠ mXerr) (t : K) (out : Loc)
    (dt : K) : RunLive lax S T (cashKarpClassicImpl f inp dxdt t out dt) (cashKarpClassicImpl g inp dxdt t out dt) := by
  unfold cashKarpClassicImpl
  run_live hS hs

theorem dopri5_live (hS : LinClosed K S) (hs : SysRel lax S T f g) {inp dxdt : Loc} (hi : inp ≠ mXerr) (hd : dxdt ≠ mXerr) (t : K) {out : Loc}
    (ho : out ≠ mXerr) (dout : Loc) (dt : K) : RunLive lax S T (dopri5Impl f inp dxdt t out dout dt) (dopri5Impl g inp dxdt t out dout dt) := by
  unfold dopri5Impl
  run_live hS hs

variable {L : V → U} {P : CtrlParams K V} {Q : CtrlParams K U}

/-- the error estimate is assigned and then handed to the error checker -/
theorem assign_check_live {T : W → X → Prop} (hS : LinClosed K (fun x y => L x = y)) (hP : SameVerdicts L P Q) (l : List (K × Loc))
    (hl : ∀ p ∈ l, p.2 ≠ mXerr) {inp dxdt : Loc} (hi : inp ≠ mXerr) (hd : dxdt ≠ mXerr) (t dt : K) :
    RunLive lax (fun x y => L x = y) T
      (linTo mXerr l >>= fun _ => callChecker' P inp dxdt mXerr dt >>= fun e => pure (decide' P t dt e) : StepM K V W (TryOut K))
      (linTo mXerr l >>= fun _ => callChecker' Q inp dxdt mXerr dt >>= fun e => pure (decide' Q t dt e) : StepM K U X (TryOut K)) := by
  intro h h' hr
  have hx : L _ = _ := hS.live hr l hl
  have e1 : (h.set mXerr (lin (l.map fun p => (p.1, h.state p.2)))).state inp = h.state inp := by simp [Heap.set, hi]
  have e2 : (h.set mXerr (lin (l.map fun p => (p.1, h.state p.2)))).state dxdt = h.state dxdt := by simp [Heap.set, hd]
  have e1' : (h'.set mXerr (lin (l.map fun p => (p.1, h'.state p.2)))).state inp = h'.state inp := by simp [Heap.set, hi]
  have e2' : (h'.set mXerr (lin (l.map fun p => (p.1, h'.state p.2)))).state dxdt = h'.state dxdt := by simp [Heap.set, hd]
  have e3 : (h.set mXerr (lin (l.map fun p => (p.1, h.state p.2)))).state mXerr = lin (l.map fun p => (p.1, h.state p.2)) := by simp [Heap.set]
  have e3' : (h'.set mXerr (lin (l.map fun p => (p.1, h'.state p.2)))).state mXerr = lin (l.map fun p => (p.1, h'.state p.2)) := by simp [Heap.set]
  have hdec : ∀ e, decide' Q t dt e = decide' P t dt e := fun e => by
    unfold decide'; rw [hP.gtOne, hP.adjuster, hP.errorOrder, hP.stepperOrder]
  refine ⟨_, _, rfl, ?_, ?_⟩
  · simp only [e1, e2, e3, e1', e2', e3']
    rw [hdec, ← hr.state inp hi, ← hr.state dxdt hd, ← hx, hP.checker]
  · refine ⟨fun l' hl' => ?_, hr.num, hr.flag, hr.nat, hr.world⟩
    simp only [Heap.set, Function.update_of_ne hl']
    exact hr.state l' hl'

theorem tryStep4_live {T : W → X → Prop} (hS : LinClosed K (fun x y => L x = y)) (hs : SysRel lax (fun x y => L x = y) T f g)
    (hP : SameVerdicts L P Q) (s : ErrorStepper K) {inp dxdt : Loc} (hi : inp ≠ mXerr) (hd : dxdt ≠ mXerr) (t : K) (out : Loc) (dt : K) :
    RunLive lax (fun x y => L x = y) T (tryStep4 P s.errImpl f inp dxdt t out dt) (tryStep4 Q s.errImpl g inp dxdt t out dt) := by
  unfold tryStep4
  rw [hP.adjuster]
  refine RunLive.ite (RunLive.pure _) ?_
  have key : ∀ (T' : Tableau K) (b2 : List K), RunLive lax (fun x y => L x = y) T
      (genericErrRkImpl T' b2 f inp dxdt t out dt mXerr >>= fun _ => callChecker' P inp dxdt mXerr dt >>= fun e => pure (decide' P t dt e))
      (genericErrRkImpl T' b2 g inp dxdt t out dt mXerr >>= fun _ => callChecker' Q inp dxdt mXerr dt >>= fun e => pure (decide' Q t dt e)) := by
    intro T' b2
    unfold genericErrRkImpl genericRkImpl
    rw [bind_assoc, bind_assoc]
    exact (runStages_live hS hs _ hi hd _ _ _ _ _).bind fun _ => assign_check_live hS hP _ (zip_ne (stageArgs_ne hd _)) hi hd t dt
  unfold doStep8
  cases s with
  | generic T b2 => exact key _ _
  | cashKarp => exact key _ _
  | fehlberg => exact key _ _
  | cashKarpClassic =>
    unfold ErrorStepper.errImpl cashKarpClassicErrImpl
    simp only [bind_assoc]
    refine (cashKarp_live hS hs hi hd _ _ _).bind fun _ => assign_check_live hS hP _ (by simp_all [mK, mXerr]) hi hd t dt

theorem tryStep1_live {T : W → X → Prop} (hS : LinClosed K (fun x y => L x = y)) (hs : SysRel lax (fun x y => L x = y) T f g)
    (hP : SameVerdicts L P Q) (s : ErrorStepper K) {x : Loc} (hx : x ≠ mXerr) (t dt : K) :
    RunLive lax (fun x y => L x = y) T (tryStep1 P s.errImpl f x t dt) (tryStep1 Q s.errImpl g x t dt) := by
  unfold tryStep1 tryStep2
  refine (RunLive.callSys hs hx _ _).bind fun _ => (tryStep4_live hS hs hP s hx (by simp [mCtrlDxdt, mXerr]) _ _ _).bind fun r => ?_
  exact RunLive.ite ((RunLive.copyTo (by simp [mXnew, mXerr]) _).bind fun _ => RunLive.pure _) (RunLive.pure _)

theorem fsalTry4_live {T : W → X → Prop} (hS : LinClosed K (fun x y => L x = y)) (hs : SysRel lax (fun x y => L x = y) T f g)
    (hP : SameVerdicts L P Q) {inp dxdt : Loc} (hi : inp ≠ mXerr) (hd : dxdt ≠ mXerr) (t : K) {out dout : Loc} (ho : out ≠ mXerr)
    (hdo : dout ≠ mXerr) (dt : K) :
    RunLive lax (fun x y => L x = y) T (fsalTry4 P dopri5ErrImpl f inp dxdt t out dout dt) (fsalTry4 Q dopri5ErrImpl g inp dxdt t out dout dt) := by
  unfold fsalTry4
  rw [hP.adjuster]
  refine RunLive.ite (RunLive.pure _) ?_
  unfold fsalStep8 dopri5ErrImpl
  split
  · simp only [bind_assoc]
    refine (RunLive.setFlag _ _).bind fun _ => (RunLive.copyTo hd _).bind fun _ => (dopri5_live hS hs hi hd _ ho _ _).bind fun _ => ?_
    exact assign_check_live hS hP _ (zip_ne (by simp_all [mK, mXerr, mDxdtTmp])) hi hd t dt
  · simp only [bind_assoc]
    refine (RunLive.setFlag _ _).bind fun _ => (dopri5_live hS hs hi hd _ ho _ _).bind fun _ => ?_
    exact assign_check_live hS hP _ (zip_ne (by simp_all [mK, mXerr])) hi hd t dt

theorem fsalTry1_live {T : W → X → Prop} (hS : LinClosed K (fun x y => L x = y)) (hs : SysRel lax (fun x y => L x = y) T f g)
    (hP : SameVerdicts L P Q) (resized : Bool) {x : Loc} (hx : x ≠ mXerr) (t dt : K) :
    RunLive lax (fun x y => L x = y) T (fsalTry1 P dopri5ErrImpl resized f x t dt) (fsalTry1 Q dopri5ErrImpl resized g x t dt) := by
  have a1 : RunLive lax (fun x y => L x = y) T (fsalTry3 P dopri5ErrImpl f x mCtrlDxdt t dt) (fsalTry3 Q dopri5ErrImpl g x mCtrlDxdt t dt) := by
    unfold fsalTry3
    refine (fsalTry4_live hS hs hP hx (by simp [mCtrlDxdt, mXerr]) _ (by simp [mXnew, mXerr]) (by simp [mDxdtNew, mXerr]) _).bind fun r => ?_
    exact RunLive.ite ((RunLive.copyTo (by simp [mXnew, mXerr]) _).bind fun _ => (RunLive.copyTo (by simp [mDxdtNew, mXerr]) _).bind fun _ =>
      RunLive.pure _) (RunLive.pure _)
  unfold fsalTry1 fsalCtrlInitialize
  refine (RunLive.getFlag _).bind fun _ => RunLive.ite ?_ a1
  exact ((RunLive.callSys hs hx _ _).bind fun _ => RunLive.setFlag _ _).bind fun _ => a1

/-! ## Dense output -/

theorem getCurrent_ne (b : Bool) : getCurrent b ≠ mXerr := by cases b <;> simp [getCurrent, mX1, mX2, mXerr]
theorem getOld_ne (b : Bool) : getOld b ≠ mXerr := by cases b <;> simp [getOld, mX1, mX2, mXerr]
theorem getCurrentDeriv_ne (b : Bool) : getCurrentDeriv b ≠ mXerr := by cases b <;> simp [getCurrentDeriv, mDxdt1, mDxdt2, mXerr]
theorem getOldDeriv_ne (b : Bool) : getOldDeriv b ≠ mXerr := by cases b <;> simp [getOldDeriv, mDxdt1, mDxdt2, mXerr]

theorem fsalDenseBody_live {T : W → X → Prop} (hS : LinClosed K (fun x y => L x = y)) (hs : SysRel lax (fun x y => L x = y) T f g)
    (hP : SameVerdicts L P Q) (s : Bool × ℕ) :
    RunLive lax (fun x y => L x = y) T (fsalDenseBody P dopri5ErrImpl f s) (fsalDenseBody Q dopri5ErrImpl g s) := by
  unfold fsalDenseBody
  exact (RunLive.getFlag _).bind fun b => (RunLive.getNum _).bind fun _ => (RunLive.getNum _).bind fun _ =>
    (fsalTry4_live hS hs hP (getCurrent_ne b) (getCurrentDeriv_ne b) _ (getOld_ne b) (getOldDeriv_ne b) _).bind fun _ =>
    (RunLive.setNum _ _).bind fun _ => (RunLive.setNum _ _).bind fun _ => (failedStepChecker_live _ _).bind fun _ => RunLive.pure _

theorem fsalDenseDoStep_live {T : W → X → Prop} (hS : LinClosed K (fun x y => L x = y)) (hs : SysRel False (fun x y => L x = y) T f g)
    (hP : SameVerdicts L P Q) :
    RunLive False (fun x y => L x = y) T (fsalDenseDoStep P dopri5ErrImpl f) (fsalDenseDoStep Q dopri5ErrImpl g) := by
  have a1 : RunLive False (fun x y => L x = y) T (fsalDenseDeriv f) (fsalDenseDeriv g) := by
    unfold fsalDenseDeriv
    exact (RunLive.getFlag _).bind fun _ => RunLive.ite ((RunLive.getFlag _).bind fun b => (RunLive.getNum _).bind fun _ =>
      (RunLive.callSys hs (getCurrent_ne b) _ _).bind fun _ => RunLive.setFlag _ _) (RunLive.pure _)
  have a2 : RunLive False (fun x y => L x = y) T (fsalDenseLoop P dopri5ErrImpl f) (fsalDenseLoop Q dopri5ErrImpl g) :=
    (fsalDenseBody_live hS hs hP _).bind fun _ => RunLive.whileM (fsalDenseBody_live hS hs hP) _
  unfold fsalDenseDoStep toggleCurrentState
  exact a1.bind fun _ => (RunLive.getNum _).bind fun _ => (RunLive.setNum _ _).bind fun _ => a2.bind fun _ =>
    ((RunLive.getFlag _).bind fun _ => RunLive.setFlag _ _).bind fun _ => (RunLive.getNum _).bind fun _ => (RunLive.getNum _).bind fun _ => RunLive.pure _

theorem fsalDenseInit_live {T : W → X → Prop} {x : Loc} (hx : x ≠ mXerr) (t dt : K) :
    RunLive lax (fun x y => L x = y) T (fsalDenseInit x t dt) (fsalDenseInit x t dt) :=
  (RunLive.getFlag _).bind fun _ => (RunLive.copyTo hx _).bind fun _ => (RunLive.setNum _ _).bind fun _ => (RunLive.setNum _ _).bind fun _ =>
    RunLive.setFlag _ _

theorem fsalDenseCalcState_live {T : W → X → Prop} (hS : LinClosed K (fun x y => L x = y)) (t : K) (x : Loc) :
    RunLive lax (fun x y => L x = y) T (fsalDenseCalcState t x) (fsalDenseCalcState t x) := by
  refine (RunLive.getFlag _).bind fun b => (RunLive.getNum _).bind fun _ => (RunLive.getNum _).bind fun _ => RunLive.linTo hS _ _ ?_
  refine cons_ne (getOld_ne b) (zip_ne ?_)
  have h1 := getOldDeriv_ne b
  have h2 := getCurrentDeriv_ne b
  simp_all [mK, mXerr]

end
end Verif
