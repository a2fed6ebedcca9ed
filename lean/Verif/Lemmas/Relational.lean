import Verif.Spec.Relational

/-! # Related runs: composition and the primitive operations -/

set_option linter.unusedSectionVars false

namespace Verif
variable {K V U W X α β : Type} {lax : Prop} {S : V → U → Prop} {T : W → X → Prop}

theorem RunRel.bind {p : StepM K V W α} {q : StepM K U X α} {p' : α → StepM K V W β} {q' : α → StepM K U X β} (h1 : RunRel lax S T p q)
    (h2 : ∀ a, RunRel lax S T (p' a) (q' a)) : RunRel lax S T (p >>= p') (q >>= q') := by
  intro h h' hr
  have := h1 h h' hr
  rw [M.bind_apply, M.bind_apply]
  cases hp : p h with
  | ok a h₁ =>
    rw [hp] at this
    obtain ⟨b, h₁', e, rfl, hr'⟩ := this
    rw [e]
    exact h2 a h₁ h₁' hr'
  | err e h₁ =>
    rw [hp] at this
    rcases this with hl | ⟨h₁', e', hr'⟩
    · exact Or.inl hl
    · rw [e']; exact Or.inr ⟨h₁', rfl, hr'⟩
  | ub =>
    rw [hp] at this
    rcases this with hl | e'
    · exact Or.inl hl
    · rw [e']; exact Or.inr rfl
  | div =>
    rw [hp] at this
    rcases this with hl | e'
    · exact Or.inl hl
    · rw [e']; exact Or.inr rfl

theorem RunRel.pure (a : α) : RunRel lax S T (pure a : StepM K V W α) (pure a) := fun _ h' hr => ⟨a, h', rfl, rfl, hr⟩

theorem RunRel.ub : RunRel lax S T (M.ub : StepM K V W α) M.ub := fun _ _ _ => Or.inr rfl

theorem HeapRel.set {h : Heap K V W} {h' : Heap K U X} (hr : HeapRel S T h h') (l : Loc) {v : V} {u : U} (hv : S v u) :
    HeapRel S T (h.set l v) (h'.set l u) where
  state l' := by
    simp only [Heap.set, Function.update_apply]
    split
    · exact hv
    · exact hr.state l'
  num := hr.num
  flag := hr.flag
  nat := hr.nat
  world := hr.world

theorem HeapRel.put {h : Heap K V W} {h' : Heap K U X} (hr : HeapRel S T h h') (l : Loc) {v : V} {u : U} {w : W} {x : X} (hv : S v u)
    (hw : T w x) : HeapRel S T (h.put l v w) (h'.put l u x) where
  state l' := by
    simp only [Heap.put, Function.update_apply]
    split
    · exact hv
    · exact hr.state l'
  num := hr.num
  flag := hr.flag
  nat := hr.nat
  world := hw

theorem RunRel.callSys {f : Sys K V W} {g : Sys K U X} (hs : SysRel lax S T f g) (src dst : Loc) (t : K) :
    RunRel lax S T (callSys f src dst t) (callSys g src dst t) := by
  intro h h' hr
  have := hs _ _ t _ _ (hr.state src) hr.world
  unfold Verif.callSys
  cases hf : f (h.state src) t h.world with
  | ok v w =>
    rw [hf] at this
    obtain ⟨u, x, e, hv, hw⟩ := this
    rw [e]
    exact ⟨(), _, rfl, rfl, hr.put dst hv hw⟩
  | err e w =>
    rw [hf] at this
    rcases this with hl | ⟨x, e', hw⟩
    · exact Or.inl hl
    · rw [e']; exact Or.inr ⟨_, rfl, ⟨hr.state, hr.num, hr.flag, hr.nat, hw⟩⟩
  | ub =>
    rw [hf] at this
    rcases this with hl | e'
    · exact Or.inl hl
    · rw [e']; exact Or.inr rfl
  | div =>
    rw [hf] at this
    rcases this with hl | e'
    · exact Or.inl hl
    · rw [e']; exact Or.inr rfl

theorem LinClosed.heap [StateOps K V] [StateOps K U] (hS : LinClosed K S) {h : Heap K V W} {h' : Heap K U X} (hr : HeapRel S T h h')
    (l : List (K × Loc)) : S (lin (l.map fun p => (p.1, h.state p.2))) (lin (l.map fun p => (p.1, h'.state p.2))) := by
  have := hS (l.map fun p => (p.1, h.state p.2, h'.state p.2)) (by
    intro p hp
    obtain ⟨q, -, rfl⟩ := List.mem_map.1 hp
    exact hr.state q.2)
  simpa only [List.map_map, Function.comp_def] using this

theorem RunRel.linTo [StateOps K V] [StateOps K U] (hS : LinClosed K S) (dst : Loc) (l : List (K × Loc)) :
    RunRel lax S T (linTo dst l) (linTo dst l) := fun _ _ hr => ⟨(), _, rfl, rfl, hr.set dst (hS.heap hr l)⟩

theorem RunRel.copyTo (src dst : Loc) : RunRel (K := K) lax S T (copyTo src dst) (copyTo src dst) :=
  fun _ _ hr => ⟨(), _, rfl, rfl, hr.set dst (hr.state src)⟩

theorem RunRel.linSwap [StateOps K V] [StateOps K U] (hS : LinClosed K S) (a b c : Loc) (f1 f2 : K) :
    RunRel lax S T (linSwap a b c f1 f2) (linSwap a b c f1 f2) := fun _ _ hr =>
  ⟨(), _, rfl, rfl, (hr.set a (hS.heap hr [(f1, b), (f2, c)])).set b (hr.state a)⟩

theorem RunRel.setFlag (l : Loc) (b : Bool) : RunRel (K := K) lax S T (setFlag l b) (setFlag l b) := fun _ _ hr =>
  ⟨(), _, rfl, rfl, ⟨hr.state, hr.num, by simp only [Heap.putFlag, hr.flag], hr.nat, hr.world⟩⟩

theorem RunRel.getFlag (l : Loc) : RunRel (K := K) lax S T (getFlag l) (getFlag l) := fun _ _ hr =>
  ⟨_, _, rfl, by rw [hr.flag], hr⟩

theorem RunRel.setNat (l : Loc) (n : ℕ) : RunRel (K := K) lax S T (setNat l n) (setNat l n) := fun _ _ hr =>
  ⟨(), _, rfl, rfl, ⟨hr.state, hr.num, hr.flag, by simp only [Heap.putNat, hr.nat], hr.world⟩⟩

theorem RunRel.getNat (l : Loc) : RunRel (K := K) lax S T (getNat l) (getNat l) := fun _ _ hr =>
  ⟨_, _, rfl, by rw [hr.nat], hr⟩

theorem RunRel.ite {c : Prop} [Decidable c] {p p' : StepM K V W α} {q q' : StepM K U X α} (h1 : RunRel lax S T p q)
    (h2 : RunRel lax S T p' q') : RunRel lax S T (if c then p else p') (if c then q else q') := by
  split
  · exact h1
  · exact h2

/-- closes goals about straight-line programs -/
macro "run_rel" hS:ident hs:ident : tactic => `(tactic| repeat' first
  | exact RunRel.callSys $hs _ _ _
  | exact RunRel.linTo $hS _ _
  | exact RunRel.copyTo _ _
  | exact RunRel.linSwap $hS _ _ _ _ _
  | exact RunRel.setFlag _ _
  | exact RunRel.getFlag _
  | exact RunRel.setNat _ _
  | exact RunRel.getNat _
  | exact RunRel.pure _
  | exact RunRel.ub
  | assumption
  | (refine RunRel.bind ?_ fun _ => ?_)
  | (refine RunRel.ite ?_ ?_))

section
variable [Add K] [Sub K] [Mul K] [Div K] [IntCast K] [Neg K] [StateOps K V] [StateOps K U] {f : Sys K V W} {g : Sys K U X}

theorem calculateStage_rel (hS : LinClosed K S) (hs : SysRel lax S T f g) (count n : ℕ) (st : K × List K) (inp dxdt : Loc) (t : K) (out : Loc)
    (dt : K) : RunRel lax S T (calculateStage f count n st inp dxdt t out dt) (calculateStage g count n st inp dxdt t out dt) := by
  unfold calculateStage
  run_rel hS hs

theorem runStages_rel (hS : LinClosed K S) (hs : SysRel lax S T f g) (count : ℕ) (inp dxdt : Loc) (t : K) (out : Loc) (dt : K)
    (l : List (K × List K)) : ∀ n, RunRel lax S T (runStages f count inp dxdt t out dt n l) (runStages g count inp dxdt t out dt n l) := by
  induction l with
  | nil => exact fun n => RunRel.pure ()
  | cons st rest ih => exact fun n => (calculateStage_rel hS hs count n st inp dxdt t out dt).bind fun _ => ih (n + 1)

theorem midpointLoop_rel (hS : LinClosed K S) (hs : SysRel lax S T f g) (h h2 : K) (n : ℕ) : ∀ th,
    RunRel lax S T (midpointLoop f h h2 n th) (midpointLoop g h h2 n th) := by
  induction n with
  | zero => exact fun th => RunRel.pure ()
  | succ n ih =>
    intro th
    unfold midpointLoop
    refine RunRel.bind (RunRel.linSwap hS _ _ _ _ _) fun _ => RunRel.bind (RunRel.callSys hs _ _ _) fun _ => ih _

theorem midpointImpl_rel (hS : LinClosed K S) (hs : SysRel lax S T f g) (m : ℕ) (inp dxdt : Loc) (t : K) (out : Loc) (dt : K) :
    RunRel lax S T (midpointImpl m f inp dxdt t out dt) (midpointImpl m g inp dxdt t out dt) := by
  unfold midpointImpl
  generalize (m + 65535) % 65536 = n
  refine (RunRel.linTo hS _ _).bind fun _ => (RunRel.callSys hs _ _ _).bind fun _ => (RunRel.copyTo _ _).bind fun _ => ?_
  exact (midpointLoop_rel hS hs _ _ _ _).bind fun _ => RunRel.linTo hS _ _

theorem explicit_rel (hS : LinClosed K S) (hs : SysRel lax S T f g) (s : ExplicitStepper K) (inp dxdt : Loc) (t : K) (out : Loc) (dt : K) :
    RunRel lax S T (s.impl f inp dxdt t out dt) (s.impl g inp dxdt t out dt) := by
  cases s with
  | euler => exact RunRel.linTo hS _ _
  | generic T => exact runStages_rel hS hs _ _ _ _ _ _ _ _
  | rk4 => exact runStages_rel hS hs _ _ _ _ _ _ _ _
  | rk4Classic =>
    unfold ExplicitStepper.impl rk4ClassicImpl
    run_rel hS hs
  | cashKarp => exact runStages_rel hS hs _ _ _ _ _ _ _ _
  | cashKarpClassic =>
    unfold ExplicitStepper.impl cashKarpClassicImpl
    run_rel hS hs
  | fehlberg => exact runStages_rel hS hs _ _ _ _ _ _ _ _
  | midpoint m => exact midpointImpl_rel hS hs m _ _ _ _ _

theorem errorStepper_rel (hS : LinClosed K S) (hs : SysRel lax S T f g) (s : ErrorStepper K) (inp dxdt : Loc) (t : K) (out : Loc) (dt : K)
    (e : Loc) : RunRel lax S T (s.errImpl f inp dxdt t out dt e) (s.errImpl g inp dxdt t out dt e) := by
  have key : ∀ (T' : Tableau K) (b2 : List K), RunRel lax S T (genericErrRkImpl T' b2 f inp dxdt t out dt e)
      (genericErrRkImpl T' b2 g inp dxdt t out dt e) := fun T' b2 =>
    (runStages_rel hS hs _ _ _ _ _ _ _ _).bind fun _ => RunRel.linTo hS _ _
  cases s with
  | generic T b2 => exact key _ _
  | cashKarp => exact key _ _
  | cashKarpClassic => exact (explicit_rel hS hs .cashKarpClassic inp dxdt t out dt).bind fun _ => RunRel.linTo hS _ _
  | fehlberg => exact key _ _

theorem extrapolateLoop_rel (hS : LinClosed K S) (k n : ℕ) :
    RunRel lax S T (extrapolateLoop k n : StepM K V W Unit) (extrapolateLoop k n) := by
  induction n with
  | zero => exact RunRel.pure ()
  | succ n ih => exact (RunRel.linTo hS _ _).bind fun _ => ih

theorem extrapolationLoop_rel (hS : LinClosed K S) (hs : SysRel lax S T f g) (inp dxdt : Loc) (t : K) (out : Loc) (dt : K) (n : ℕ) : ∀ k,
    RunRel lax S T (extrapolationLoop f inp dxdt t out dt n k) (extrapolationLoop g inp dxdt t out dt n k) := by
  induction n with
  | zero => exact fun k => RunRel.pure ()
  | succ n ih =>
    exact fun k => (midpointImpl_rel hS hs _ _ _ _ _ _).bind fun _ =>
      ((extrapolateLoop_rel hS k (k - 1)).bind fun _ => RunRel.linTo hS _ _).bind fun _ => ih (k + 1)

theorem extrapolation_rel (hS : LinClosed K S) (hs : SysRel lax S T f g) (kmax : ℕ) (inp dxdt : Loc) (t : K) (out : Loc) (dt : K) :
    RunRel lax S T (extrapolationImpl kmax f inp dxdt t out dt) (extrapolationImpl kmax g inp dxdt t out dt) :=
  (midpointImpl_rel hS hs _ _ _ _ _ _).bind fun _ => extrapolationLoop_rel hS hs _ _ _ _ _ _ _

theorem initStepper_rel (hS : LinClosed K S) (hs : SysRel lax S T f g) (s : InitStepper K) (inp dxdt : Loc) (t : K) (out : Loc) (dt : K) :
    RunRel lax S T (s.impl f inp dxdt t out dt) (s.impl g inp dxdt t out dt) := by
  cases s with
  | explicit s => exact explicit_rel hS hs s _ _ _ _ _
  | extrapolation kmax => exact extrapolation_rel hS hs kmax _ _ _ _ _

theorem initStepper_io_rel (hS : LinClosed K S) (hs : SysRel lax S T f g) (s : InitStepper K) (x dxdt : Loc) (t : K) (dt : K) :
    RunRel lax S T (s.io f x dxdt t dt) (s.io g x dxdt t dt) := by
  cases s with
  | explicit s => exact explicit_rel hS hs s _ _ _ _ _
  | extrapolation kmax => exact (extrapolation_rel hS hs kmax _ _ _ _ _).bind fun _ => RunRel.copyTo _ _

theorem dopri5_rel (hS : LinClosed K S) (hs : SysRel lax S T f g) (inp dxdt : Loc) (t : K) (out dout : Loc) (dt : K) :
    RunRel lax S T (dopri5Impl f inp dxdt t out dout dt) (dopri5Impl g inp dxdt t out dout dt) := by
  unfold dopri5Impl
  run_rel hS hs

theorem dopri5Err_rel (hS : LinClosed K S) (hs : SysRel lax S T f g) (inp dxdt : Loc) (t : K) (out dout : Loc) (dt : K) (e : Loc) :
    RunRel lax S T (dopri5ErrImpl f inp dxdt t out dout dt e) (dopri5ErrImpl g inp dxdt t out dout dt e) := by
  have := dopri5_rel hS hs inp dxdt t out dout dt
  unfold dopri5ErrImpl
  run_rel hS hs

theorem fsalPrepare_rel (hs : SysRel lax S T f g) (r : Bool) (x : Loc) (t : K) :
    RunRel lax S T (fsalPrepare r f x t) (fsalPrepare r g x t) := by
  unfold fsalPrepare fsalInitialize
  refine RunRel.bind (RunRel.getFlag _) fun _ => RunRel.ite (RunRel.bind (RunRel.callSys hs _ _ _) fun _ => RunRel.setFlag _ _) (RunRel.pure _)

theorem bufAt_rel (N i : ℕ) : RunRel (K := K) lax S T (bufAt N i) (bufAt N i) := by
  unfold bufAt
  exact RunRel.bind (RunRel.getNat _) fun _ => RunRel.ite RunRel.ub (RunRel.ite (RunRel.pure _) RunRel.ub)

theorem bufRotate_rel (N : ℕ) : RunRel (K := K) lax S T (bufRotate N) (bufRotate N) := by
  unfold bufRotate
  exact RunRel.bind (RunRel.getNat _) fun _ => RunRel.ite (RunRel.setNat _ _) (RunRel.setNat _ _)

theorem bufRefs_rel (N n : ℕ) : ∀ i, RunRel (K := K) lax S T (bufRefs N n i) (bufRefs N n i) := by
  induction n with
  | zero => exact fun i => RunRel.pure []
  | succ n ih => exact fun i => (bufAt_rel N i).bind fun _ => (ih (i + 1)).bind fun _ => RunRel.pure _

theorem abStep_rel (hS : LinClosed K S) (hs : SysRel lax S T f g) (N : ℕ) (coef : List K) (init : InitStepper K) (r : Bool) (inp : Loc) (t : K)
    (out : Loc) (dt : K) : RunRel lax S T (abStep N coef init f r inp t out dt) (abStep N coef init g r inp t out dt) := by
  have a1 := bufRotate_rel (K := K) (lax := lax) (S := S) (T := T) N
  have a2 := bufAt_rel (K := K) (lax := lax) (S := S) (T := T) N 0
  have a3 : ∀ l, RunRel lax S T (init.impl f inp l t out dt) (init.impl g inp l t out dt) := fun l => initStepper_rel hS hs init _ _ _ _ _
  have a4 : RunRel lax S T (abCallAlgebra N coef inp out dt : StepM K V W Unit) (abCallAlgebra N coef inp out dt) :=
    (bufRefs_rel N N 0).bind fun _ => RunRel.linTo hS _ _
  unfold abStep
  run_rel hS hs
  all_goals exact a3 _

theorem abInitLoop_rel (hS : LinClosed K S) (hs : SysRel lax S T f g) (N : ℕ) (init : InitStepper K) (x : Loc) (dt : K) (n : ℕ) : ∀ i t,
    RunRel lax S T (abInitLoop N init f x dt n i t) (abInitLoop N init g x dt n i t) := by
  induction n with
  | zero => exact fun i t => RunRel.pure t
  | succ n ih =>
    intro i t
    have a1 := bufRotate_rel (K := K) (lax := lax) (S := S) (T := T) N
    have a2 := bufAt_rel (K := K) (lax := lax) (S := S) (T := T) N 0
    have a3 : ∀ l, RunRel lax S T (init.io f x l t dt) (init.io g x l t dt) := fun l => initStepper_io_rel hS hs init _ _ _ _
    have a4 := ih (i + 1) (t + dt)
    unfold abInitLoop
    run_rel hS hs
    all_goals exact a3 _

theorem abmStep_rel (hS : LinClosed K S) (hs : SysRel lax S T f g) (N : ℕ) (cb cm : List K) (init : InitStepper K) (r : Bool) (inp : Loc) (t : K)
    (out : Loc) (dt : K) : RunRel lax S T (abmStep N cb cm init f r inp t out dt) (abmStep N cb cm init g r inp t out dt) := by
  have a1 := abStep_rel hS hs N cb init r inp t abmX dt
  have a2 := abStep_rel hS hs N cb init r inp t out dt
  have a3 : RunRel lax S T (amStep N cm f inp abmX (t + dt) out dt) (amStep N cm g inp abmX (t + dt) out dt) :=
    (RunRel.callSys hs _ _ _).bind fun _ => (bufRefs_rel N (N - 1) 0).bind fun _ => RunRel.linTo hS _ _
  unfold abmStep abIsInitialized
  run_rel hS hs

/-- Every call takes related heaps to related heaps. -/
theorem stepCall_rel (hS : LinClosed K S) (hs : SysRel lax S T f g) (c : StepCall K) : RunRel lax S T (c.run f) (c.run g) := by
  cases c <;> unfold StepCall.run
  · exact (RunRel.callSys hs _ _ _).bind fun _ => initStepper_rel hS hs _ _ _ _ _ _
  · exact initStepper_io_rel hS hs _ _ _ _ _
  · exact (RunRel.callSys hs _ _ _).bind fun _ => initStepper_rel hS hs _ _ _ _ _ _
  · exact initStepper_rel hS hs _ _ _ _ _ _
  · exact (RunRel.callSys hs _ _ _).bind fun _ => errorStepper_rel hS hs _ _ _ _ _ _ _
  · exact errorStepper_rel hS hs _ _ _ _ _ _ _
  · exact (RunRel.callSys hs _ _ _).bind fun _ => errorStepper_rel hS hs _ _ _ _ _ _ _
  · exact errorStepper_rel hS hs _ _ _ _ _ _ _
  · exact (extrapolation_rel hS hs _ _ _ _ _ _).bind fun _ => RunRel.linTo hS _ _
  · exact (fsalPrepare_rel hs _ _ _).bind fun _ => dopri5_rel hS hs _ _ _ _ _ _
  · exact (RunRel.setFlag _ _).bind fun _ => dopri5_rel hS hs _ _ _ _ _ _
  · exact (fsalPrepare_rel hs _ _ _).bind fun _ => dopri5_rel hS hs _ _ _ _ _ _
  · exact (RunRel.setFlag _ _).bind fun _ => dopri5_rel hS hs _ _ _ _ _ _
  · exact (fsalPrepare_rel hs _ _ _).bind fun _ => dopri5Err_rel hS hs _ _ _ _ _ _ _
  · exact (RunRel.setFlag _ _).bind fun _ => dopri5Err_rel hS hs _ _ _ _ _ _ _
  · exact (fsalPrepare_rel hs _ _ _).bind fun _ => dopri5Err_rel hS hs _ _ _ _ _ _ _
  · exact (RunRel.setFlag _ _).bind fun _ => dopri5Err_rel hS hs _ _ _ _ _ _ _
  · exact (RunRel.callSys hs _ _ _).bind fun _ => RunRel.setFlag _ _
  · exact (RunRel.copyTo _ _).bind fun _ => RunRel.setFlag _ _
  · exact RunRel.setFlag _ _
  · exact abStep_rel hS hs _ _ _ _ _ _ _ _
  · exact ((abInitLoop_rel hS hs _ _ _ _ _ _ _).bind fun _ => (RunRel.setNat _ _).bind fun _ => RunRel.pure _).bind fun _ => RunRel.pure _
  · exact RunRel.setNat _ _
  · exact abmStep_rel hS hs _ _ _ _ _ _ _ _ _

theorem runStepCalls_rel (hS : LinClosed K S) (hs : SysRel lax S T f g) (cs : List (StepCall K)) : RunRel lax S T (runStepCalls f cs) (runStepCalls g cs) := by
  induction cs with
  | nil => exact RunRel.pure ()
  | cons c cs ih => exact (stepCall_rel hS hs c).bind fun _ => ih

end

/-! ## Loops -/

theorem whileF_rel {σ : Type} {cond : σ → Bool} {p : σ → StepM K V W σ} {q : σ → StepM K U X σ} (hb : ∀ s, RunRel lax S T (p s) (q s)) (n : ℕ) :
    ∀ s (h : Heap K V W) (h' : Heap K U X), HeapRel S T h h' →
      (whileF cond p n s h = none → lax ∨ whileF cond q n s h' = none) ∧
      ∀ r, whileF cond p n s h = some r → (lax ∧ ∀ a h₁, r ≠ .ok a h₁) ∨ ∃ r', whileF cond q n s h' = some r' ∧ ResRel lax (· = ·) (HeapRel S T) r r' := by
  induction n with
  | zero => exact fun s h h' _ => ⟨fun _ => Or.inr rfl, fun r hr => by simp [whileF] at hr⟩
  | succ n ih =>
    intro s h h' hr
    simp only [whileF]
    by_cases hc : cond s = true
    · rw [if_pos hc, if_pos hc]
      have := hb s h h' hr
      cases hp : p s h with
      | ok a h₁ =>
        rw [hp] at this
        obtain ⟨b, h₁', e, rfl, hr'⟩ := this
        rw [e]
        exact ih a h₁ h₁' hr'
      | err e h₁ =>
        rw [hp] at this
        refine ⟨fun hn => by simp at hn, fun r hr => ?_⟩
        obtain rfl := Option.some.inj hr
        rcases this with hl | ⟨h₁', e', hr'⟩
        · exact Or.inl ⟨hl, fun _ _ h => by cases h⟩
        · rw [e']; exact Or.inr ⟨_, rfl, Or.inr ⟨_, rfl, hr'⟩⟩
      | ub =>
        rw [hp] at this
        refine ⟨fun hn => by simp at hn, fun r hr => ?_⟩
        obtain rfl := Option.some.inj hr
        rcases this with hl | e'
        · exact Or.inl ⟨hl, fun _ _ h => by cases h⟩
        · rw [e']; exact Or.inr ⟨_, rfl, Or.inr rfl⟩
      | div =>
        rw [hp] at this
        refine ⟨fun hn => by simp at hn, fun r hr => ?_⟩
        obtain rfl := Option.some.inj hr
        rcases this with hl | e'
        · exact Or.inl ⟨hl, fun _ _ h => by cases h⟩
        · rw [e']; exact Or.inr ⟨_, rfl, Or.inr rfl⟩
    · rw [if_neg hc, if_neg hc]
      refine ⟨fun hn => by simp at hn, fun r hr' => ?_⟩
      obtain rfl := Option.some.inj hr'
      exact Or.inr ⟨_, rfl, s, h', rfl, rfl, hr⟩

theorem RunRel.whileM {σ : Type} {cond : σ → Bool} {p : σ → StepM K V W σ} {q : σ → StepM K U X σ} (hb : ∀ s, RunRel lax S T (p s) (q s)) (s : σ) :
    RunRel lax S T (whileM cond p s) (whileM cond q s) := by
  intro h h' hr
  rcases whileM_div_or (cond := cond) (body := p) s h with ⟨n, hn⟩ | ⟨hn, hd⟩
  · rcases (whileF_rel (cond := cond) hb n s h h' hr).2 _ hn with ⟨hl, hno⟩ | ⟨r', hr', hrel⟩
    · cases hw : Verif.whileM cond p s h with
      | ok a h₁ => exact absurd hw (hno a h₁)
      | err e h₁ => exact Or.inl hl
      | ub => exact Or.inl hl
      | div => exact Or.inl hl
    · rw [whileM_eq_of_whileF hr']; exact hrel
  · rw [hd]
    by_cases hl : lax
    · exact Or.inl hl
    · right
      rcases whileM_div_or (cond := cond) (body := q) s h' with ⟨n, hq⟩ | ⟨_, hd'⟩
      · rcases (whileF_rel (cond := cond) hb n s h h' hr).1 (hn n) with h1 | h1
        · exact absurd h1 hl
        · rw [h1] at hq; cases hq
      · exact hd'

/-! ## Controlled steppers -/

theorem RunRel.setNum (l : Loc) (a : K) : RunRel lax S T (setNum l a) (setNum l a) := fun _ _ hr =>
  ⟨(), _, rfl, rfl, ⟨hr.state, by simp only [Heap.putNum, hr.num], hr.flag, hr.nat, hr.world⟩⟩

theorem RunRel.getNum (l : Loc) : RunRel (K := K) lax S T (getNum l) (getNum l) := fun _ _ hr =>
  ⟨_, _, rfl, by rw [hr.num], hr⟩

theorem callChecker_rel {P : CtrlParams K V} {Q : CtrlParams K U} (hP : CtrlRel S P Q) (inp dxdt xerr : Loc) (dt : K) :
    RunRel lax S T (callChecker' P inp dxdt xerr dt) (callChecker' Q inp dxdt xerr dt) := by
  intro h h' hr
  obtain ⟨h1, h2⟩ := hP.checker _ _ _ _ _ _ dt (hr.state inp) (hr.state dxdt) (hr.state xerr)
  exact ⟨_, _, rfl, h2.symm, hr.set xerr h1⟩

section
variable [Add K] [Sub K] [Mul K] [Div K] [IntCast K] [Neg K] [StateOps K V] [StateOps K U] {f : Sys K V W} {g : Sys K U X}
  {P : CtrlParams K V} {Q : CtrlParams K U}

theorem decide_rel (hP : CtrlRel S P Q) (t dt err : K) : decide' Q t dt err = decide' P t dt err := by
  unfold decide'
  rw [hP.gtOne, hP.adjuster, hP.errorOrder, hP.stepperOrder]

theorem tryStep4_rel (hS : LinClosed K S) (hs : SysRel lax S T f g) (hP : CtrlRel S P Q) (s : ErrorStepper K) (inp dxdt : Loc) (t : K) (out : Loc)
    (dt : K) : RunRel lax S T (tryStep4 P s.errImpl f inp dxdt t out dt) (tryStep4 Q s.errImpl g inp dxdt t out dt) := by
  unfold tryStep4
  rw [hP.adjuster]
  refine RunRel.ite (RunRel.pure _) ((errorStepper_rel hS hs s _ _ _ _ _ _).bind fun _ => (callChecker_rel hP _ _ _ _).bind fun _ => ?_)
  rw [decide_rel hP]
  exact RunRel.pure _

theorem tryStep2_rel (hS : LinClosed K S) (hs : SysRel lax S T f g) (hP : CtrlRel S P Q) (s : ErrorStepper K) (x dxdt : Loc) (t dt : K) :
    RunRel lax S T (tryStep2 P s.errImpl f x dxdt t dt) (tryStep2 Q s.errImpl g x dxdt t dt) := by
  have a1 := tryStep4_rel hS hs hP s x dxdt t mXnew dt
  unfold tryStep2
  run_rel hS hs

theorem fsalTry4_rel (hS : LinClosed K S) (hs : SysRel lax S T f g) (hP : CtrlRel S P Q) (inp dxdt : Loc) (t : K) (out dout : Loc)
    (dt : K) : RunRel lax S T (fsalTry4 P dopri5ErrImpl f inp dxdt t out dout dt) (fsalTry4 Q dopri5ErrImpl g inp dxdt t out dout dt) := by
  unfold fsalTry4
  rw [hP.adjuster]
  refine RunRel.ite (RunRel.pure _) (((RunRel.setFlag _ _).bind fun _ => dopri5Err_rel hS hs _ _ _ _ _ _ _).bind fun _ =>
    (callChecker_rel hP _ _ _ _).bind fun _ => ?_)
  rw [decide_rel hP]
  exact RunRel.pure _

theorem fsalTry3_rel (hS : LinClosed K S) (hs : SysRel lax S T f g) (hP : CtrlRel S P Q) (x dxdt : Loc) (t dt : K) :
    RunRel lax S T (fsalTry3 P dopri5ErrImpl f x dxdt t dt) (fsalTry3 Q dopri5ErrImpl g x dxdt t dt) := by
  have a1 := fsalTry4_rel hS hs hP x dxdt t mXnew mDxdtNew dt
  unfold fsalTry3
  run_rel hS hs

theorem failedStepChecker_rel (m n : ℕ) : RunRel (K := K) lax S T (failedStepChecker m n) (failedStepChecker m n) := by
  intro h h' hr
  unfold failedStepChecker
  split
  · exact Or.inr ⟨_, rfl, hr⟩
  · exact ⟨_, _, rfl, rfl, hr⟩

theorem fsalDenseBody_rel (hS : LinClosed K S) (hs : SysRel lax S T f g) (hP : CtrlRel S P Q) (s : Bool × ℕ) :
    RunRel lax S T (fsalDenseBody P dopri5ErrImpl f s) (fsalDenseBody Q dopri5ErrImpl g s) := by
  unfold fsalDenseBody
  exact (RunRel.getFlag _).bind fun _ => (RunRel.getNum _).bind fun _ => (RunRel.getNum _).bind fun _ => (fsalTry4_rel hS hs hP _ _ _ _ _ _).bind fun _ =>
    (RunRel.setNum _ _).bind fun _ => (RunRel.setNum _ _).bind fun _ => (failedStepChecker_rel _ _).bind fun _ => RunRel.pure _

theorem fsalDenseDoStep_rel (hS : LinClosed K S) (hs : SysRel lax S T f g) (hP : CtrlRel S P Q) :
    RunRel lax S T (fsalDenseDoStep P dopri5ErrImpl f) (fsalDenseDoStep Q dopri5ErrImpl g) := by
  have a1 : RunRel lax S T (fsalDenseDeriv f) (fsalDenseDeriv g) := by
    unfold fsalDenseDeriv
    exact (RunRel.getFlag _).bind fun _ => RunRel.ite ((RunRel.getFlag _).bind fun _ => (RunRel.getNum _).bind fun _ =>
      (RunRel.callSys hs _ _ _).bind fun _ => RunRel.setFlag _ _) (RunRel.pure _)
  have a2 : RunRel lax S T (fsalDenseLoop P dopri5ErrImpl f) (fsalDenseLoop Q dopri5ErrImpl g) :=
    (fsalDenseBody_rel hS hs hP _).bind fun _ => RunRel.whileM (fsalDenseBody_rel hS hs hP) _
  unfold fsalDenseDoStep toggleCurrentState
  exact a1.bind fun _ => (RunRel.getNum _).bind fun _ => (RunRel.setNum _ _).bind fun _ => a2.bind fun _ =>
    ((RunRel.getFlag _).bind fun _ => RunRel.setFlag _ _).bind fun _ => (RunRel.getNum _).bind fun _ => (RunRel.getNum _).bind fun _ => RunRel.pure _

theorem trialCall_rel (hS : LinClosed K S) (hs : SysRel lax S T f g) (hP : CtrlRel S P Q) (c : TrialCall K) :
    RunRel lax S T (c.run P f) (c.run Q g) := by
  cases c <;> unfold TrialCall.run
  · exact ((RunRel.callSys hs _ _ _).bind fun _ => tryStep2_rel hS hs hP _ _ _ _ _).bind fun _ => RunRel.pure _
  · exact (tryStep2_rel hS hs hP _ _ _ _ _).bind fun _ => RunRel.pure _
  · exact ((RunRel.callSys hs _ _ _).bind fun _ => tryStep4_rel hS hs hP _ _ _ _ _ _).bind fun _ => RunRel.pure _
  · exact (tryStep4_rel hS hs hP _ _ _ _ _ _).bind fun _ => RunRel.pure _
  · refine RunRel.bind ?_ fun _ => RunRel.pure _
    have a1 := fun x t dt => fsalTry3_rel hS hs hP x mCtrlDxdt t dt
    unfold fsalTry1 fsalCtrlInitialize
    refine (RunRel.getFlag _).bind fun _ => RunRel.ite ?_ ?_
    · exact ((RunRel.callSys hs _ _ _).bind fun _ => RunRel.setFlag _ _).bind fun _ => a1 _ _ _
    · exact a1 _ _ _
  · exact (fsalTry3_rel hS hs hP _ _ _ _).bind fun _ => RunRel.pure _
  · exact (fsalTry4_rel hS hs hP _ _ _ _ _ _).bind fun _ => RunRel.pure _
  · exact ((RunRel.getFlag _).bind fun _ => (RunRel.copyTo _ _).bind fun _ => (RunRel.setNum _ _).bind fun _ => (RunRel.setNum _ _).bind fun _ =>
      RunRel.setFlag _ _).bind fun _ => RunRel.pure _
  · exact (fsalDenseDoStep_rel hS hs hP).bind fun _ => RunRel.pure _
  · exact ((RunRel.getFlag _).bind fun _ => (RunRel.getNum _).bind fun _ => (RunRel.getNum _).bind fun _ => RunRel.linTo hS _ _).bind fun _ => RunRel.pure _

theorem runTrialCalls_rel (hS : LinClosed K S) (hs : SysRel lax S T f g) (hP : CtrlRel S P Q) (cs : List (TrialCall K)) :
    RunRel lax S T (runTrialCalls P f cs) (runTrialCalls Q g cs) := by
  induction cs with
  | nil => exact RunRel.pure _
  | cons c cs ih => exact (trialCall_rel hS hs hP c).bind fun _ => ih.bind fun _ => RunRel.pure _

end
end Verif
