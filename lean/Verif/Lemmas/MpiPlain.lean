import Verif.Lemmas.MpiRun

/-! # Plain steppers on several nodes -/

set_option linter.unusedSectionVars false
set_option linter.unusedVariables false

namespace Verif
variable {K V W : Type} {N : ℕ} {U : Fin N → Type} {part : ∀ n, V → U n} {combine : List (Msg K) → Option (Reply K)}

theorem HeapJoint.setNat (l : Loc) (b : ℕ) : HeapJoint (K := K) (W := W) part combine (setNat l b) fun _ => setNat l b :=
  HeapJoint.of_local (F := fun h => ((), h.putNat l b)) (G := fun n h => ((), h.putNat l b)) (fun _ => rfl) (fun _ _ => rfl)
    (fun _ _ => rfl) fun n h h' hr => ⟨rfl, ⟨hr.state, hr.num, hr.flag, by simp only [Heap.putNat, hr.nat], trivial⟩⟩

theorem HeapJoint.getNat (l : Loc) : HeapJoint (K := K) (W := W) part combine (getNat l) fun _ => getNat l :=
  HeapJoint.of_local (F := fun h => (h.nat l, h)) (G := fun n h => (h.nat l, h)) (fun _ => rfl) (fun _ _ => rfl)
    (fun _ _ => rfl) fun n h h' hr => ⟨by simp only [hr.nat], hr⟩

theorem HeapJoint.ub {α : Type} {q : ∀ n, StepM K (U n) (Port K) α} : HeapJoint (K := K) (W := W) part combine M.ub q :=
  Joint.silent fun _ _ _ _ _ _ _ => trivial

section
variable [Add K] [Sub K] [Mul K] [Div K] [IntCast K] [Neg K] [StateOps K V] [∀ n, StateOps K (U n)] {f : V → K → V} {g : ∀ n, Sys K (U n) (Port K)}

theorem HeapJoint.linSwap (hS : ∀ n, LinClosed K fun (x : V) (y : U n) => part n x = y) (a b c : Loc) (f1 f2 : K) :
    HeapJoint (W := W) part combine (linSwap a b c f1 f2) fun _ => linSwap a b c f1 f2 :=
  HeapJoint.of_local (F := fun h => ((), (h.set a (lin [(f1, h.state b), (f2, h.state c)])).set b (h.state a)))
    (G := fun n h => ((), (h.set a (lin [(f1, h.state b), (f2, h.state c)])).set b (h.state a))) (fun _ => rfl) (fun _ _ => rfl)
    (fun _ _ => rfl) fun n h h' hr => ⟨rfl, (hr.set a ((hS n).heap hr [(f1, b), (f2, c)])).set b (hr.state a)⟩

/-- closes goals about straight-line programs -/
macro "run_joint'" hS:ident hs:ident : tactic => `(tactic| repeat' first
  | exact HeapJoint.callSys $hs _ _ _
  | exact HeapJoint.linTo $hS _ _
  | exact HeapJoint.copyTo _ _
  | exact HeapJoint.linSwap $hS _ _ _ _ _
  | exact HeapJoint.setFlag _ _
  | exact HeapJoint.getFlag _
  | exact HeapJoint.setNat _ _
  | exact HeapJoint.getNat _
  | exact HeapJoint.pure _
  | exact HeapJoint.ub
  | assumption
  | (refine HeapJoint.bind ?_ fun _ => ?_)
  | (refine HeapJoint.ite ?_ ?_))

theorem midpointLoop_joint (hS : ∀ n, LinClosed K fun (x : V) (y : U n) => part n x = y) (hs : SysJoint part combine f g) (h h2 : K) (n : ℕ) : ∀ th,
    HeapJoint (W := W) part combine (midpointLoop (pureSys f) h h2 n th) fun n' => midpointLoop (g n') h h2 n th := by
  induction n with
  | zero => exact fun th => HeapJoint.pure ()
  | succ n ih =>
    intro th
    unfold midpointLoop
    refine HeapJoint.bind (HeapJoint.linSwap hS _ _ _ _ _) fun _ => HeapJoint.bind (HeapJoint.callSys hs _ _ _) fun _ => ih _

theorem midpointImpl_joint (hS : ∀ n, LinClosed K fun (x : V) (y : U n) => part n x = y) (hs : SysJoint part combine f g) (m : ℕ) (inp dxdt : Loc) (t : K) (out : Loc) (dt : K) :
    HeapJoint (W := W) part combine (midpointImpl m (pureSys f) inp dxdt t out dt) fun n' => midpointImpl m (g n') inp dxdt t out dt := by
  unfold midpointImpl
  generalize (m + 65535) % 65536 = n
  refine (HeapJoint.linTo hS _ _).bind fun _ => (HeapJoint.callSys hs _ _ _).bind fun _ => (HeapJoint.copyTo _ _).bind fun _ => ?_
  exact (midpointLoop_joint hS hs _ _ _ _).bind fun _ => HeapJoint.linTo hS _ _

theorem explicit_joint (hS : ∀ n, LinClosed K fun (x : V) (y : U n) => part n x = y) (hs : SysJoint part combine f g) (s : ExplicitStepper K) (inp dxdt : Loc) (t : K) (out : Loc) (dt : K) :
    HeapJoint (W := W) part combine (s.impl (pureSys f) inp dxdt t out dt) fun n' => s.impl (g n') inp dxdt t out dt := by
  cases s with
  | euler => exact HeapJoint.linTo hS _ _
  | generic T => exact runStages_joint hS hs _ _ _ _ _ _ _ _
  | rk4 => exact runStages_joint hS hs _ _ _ _ _ _ _ _
  | rk4Classic =>
    unfold ExplicitStepper.impl rk4ClassicImpl
    run_joint' hS hs
  | cashKarp => exact runStages_joint hS hs _ _ _ _ _ _ _ _
  | cashKarpClassic =>
    unfold ExplicitStepper.impl cashKarpClassicImpl
    run_joint' hS hs
  | fehlberg => exact runStages_joint hS hs _ _ _ _ _ _ _ _
  | midpoint m => exact midpointImpl_joint hS hs m _ _ _ _ _

theorem extrapolateLoop_joint (hS : ∀ n, LinClosed K fun (x : V) (y : U n) => part n x = y) (k n : ℕ) :
    HeapJoint (W := W) part combine (extrapolateLoop k n : StepM K V W Unit) fun n' => extrapolateLoop k n := by
  induction n with
  | zero => exact HeapJoint.pure ()
  | succ n ih => exact (HeapJoint.linTo hS _ _).bind fun _ => ih

theorem extrapolationLoop_joint (hS : ∀ n, LinClosed K fun (x : V) (y : U n) => part n x = y) (hs : SysJoint part combine f g) (inp dxdt : Loc) (t : K) (out : Loc) (dt : K) (n : ℕ) : ∀ k,
    HeapJoint (W := W) part combine (extrapolationLoop (pureSys f) inp dxdt t out dt n k) fun n' => extrapolationLoop (g n') inp dxdt t out dt n k := by
  induction n with
  | zero => exact fun k => HeapJoint.pure ()
  | succ n ih =>
    exact fun k => (midpointImpl_joint hS hs _ _ _ _ _ _).bind fun _ =>
      ((extrapolateLoop_joint hS k (k - 1)).bind fun _ => HeapJoint.linTo hS _ _).bind fun _ => ih (k + 1)

theorem extrapolation_joint (hS : ∀ n, LinClosed K fun (x : V) (y : U n) => part n x = y) (hs : SysJoint part combine f g) (kmax : ℕ) (inp dxdt : Loc) (t : K) (out : Loc) (dt : K) :
    HeapJoint (W := W) part combine (extrapolationImpl kmax (pureSys f) inp dxdt t out dt) fun n' => extrapolationImpl kmax (g n') inp dxdt t out dt :=
  (midpointImpl_joint hS hs _ _ _ _ _ _).bind fun _ => extrapolationLoop_joint hS hs _ _ _ _ _ _ _

theorem initStepper_joint (hS : ∀ n, LinClosed K fun (x : V) (y : U n) => part n x = y) (hs : SysJoint part combine f g) (s : InitStepper K) (inp dxdt : Loc) (t : K) (out : Loc) (dt : K) :
    HeapJoint (W := W) part combine (s.impl (pureSys f) inp dxdt t out dt) fun n' => s.impl (g n') inp dxdt t out dt := by
  cases s with
  | explicit s => exact explicit_joint hS hs s _ _ _ _ _
  | extrapolation kmax => exact extrapolation_joint hS hs kmax _ _ _ _ _

theorem initStepper_io_joint (hS : ∀ n, LinClosed K fun (x : V) (y : U n) => part n x = y) (hs : SysJoint part combine f g) (s : InitStepper K) (x dxdt : Loc) (t : K) (dt : K) :
    HeapJoint (W := W) part combine (s.io (pureSys f) x dxdt t dt) fun n' => s.io (g n') x dxdt t dt := by
  cases s with
  | explicit s => exact explicit_joint hS hs s _ _ _ _ _
  | extrapolation kmax => exact (extrapolation_joint hS hs kmax _ _ _ _ _).bind fun _ => HeapJoint.copyTo _ _

theorem dopri5_joint (hS : ∀ n, LinClosed K fun (x : V) (y : U n) => part n x = y) (hs : SysJoint part combine f g) (inp dxdt : Loc) (t : K) (out dout : Loc) (dt : K) :
    HeapJoint (W := W) part combine (dopri5Impl (pureSys f) inp dxdt t out dout dt) fun n' => dopri5Impl (g n') inp dxdt t out dout dt := by
  unfold dopri5Impl
  run_joint' hS hs

theorem fsalPrepare_joint (hs : SysJoint part combine f g) (r : Bool) (x : Loc) (t : K) :
    HeapJoint (W := W) part combine (fsalPrepare r (pureSys f) x t) fun n' => fsalPrepare r (g n') x t := by
  unfold fsalPrepare fsalInitialize
  refine HeapJoint.bind (HeapJoint.getFlag _) fun _ => HeapJoint.ite (HeapJoint.bind (HeapJoint.callSys hs _ _ _) fun _ => HeapJoint.setFlag _ _) (HeapJoint.pure _)

theorem bufAt_joint (N i : ℕ) : HeapJoint (K := K) (W := W) part combine (bufAt N i) fun n' => bufAt N i := by
  unfold bufAt
  exact HeapJoint.bind (HeapJoint.getNat _) fun _ => HeapJoint.ite HeapJoint.ub (HeapJoint.ite (HeapJoint.pure _) HeapJoint.ub)

theorem bufRotate_joint (N : ℕ) : HeapJoint (K := K) (W := W) part combine (bufRotate N) fun n' => bufRotate N := by
  unfold bufRotate
  exact HeapJoint.bind (HeapJoint.getNat _) fun _ => HeapJoint.ite (HeapJoint.setNat _ _) (HeapJoint.setNat _ _)

theorem bufRefs_joint (N n : ℕ) : ∀ i, HeapJoint (K := K) (W := W) part combine (bufRefs N n i) fun n' => bufRefs N n i := by
  induction n with
  | zero => exact fun i => HeapJoint.pure []
  | succ n ih => exact fun i => (bufAt_joint N i).bind fun _ => (ih (i + 1)).bind fun _ => HeapJoint.pure _

theorem abStep_joint (hS : ∀ n, LinClosed K fun (x : V) (y : U n) => part n x = y) (hs : SysJoint part combine f g) (N : ℕ) (coef : List K) (init : InitStepper K) (r : Bool) (inp : Loc) (t : K)
    (out : Loc) (dt : K) : HeapJoint (W := W) part combine (abStep N coef init (pureSys f) r inp t out dt) fun n' => abStep N coef init (g n') r inp t out dt := by
  have a1 := bufRotate_joint (K := K) (W := W) (part := part) (combine := combine) N
  have a2 := bufAt_joint (K := K) (W := W) (part := part) (combine := combine) N 0
  have a3 : ∀ l, HeapJoint (W := W) part combine (init.impl (pureSys f) inp l t out dt) fun n' => init.impl (g n') inp l t out dt := fun l => initStepper_joint hS hs init _ _ _ _ _
  have a4 : HeapJoint (W := W) part combine (abCallAlgebra N coef inp out dt : StepM K V W Unit) fun n' => abCallAlgebra N coef inp out dt :=
    (bufRefs_joint N N 0).bind fun _ => HeapJoint.linTo hS _ _
  unfold abStep
  run_joint' hS hs
  all_goals exact a3 _

theorem abmStep_joint (hS : ∀ n, LinClosed K fun (x : V) (y : U n) => part n x = y) (hs : SysJoint part combine f g) (N : ℕ) (cb cm : List K) (init : InitStepper K) (r : Bool) (inp : Loc) (t : K)
    (out : Loc) (dt : K) : HeapJoint (W := W) part combine (abmStep N cb cm init (pureSys f) r inp t out dt) fun n' => abmStep N cb cm init (g n') r inp t out dt := by
  have a1 := abStep_joint (W := W) hS hs N cb init r inp t abmX dt
  have a2 := abStep_joint (W := W) hS hs N cb init r inp t out dt
  have a3 : HeapJoint (W := W) part combine (amStep N cm (pureSys f) inp abmX (t + dt) out dt) fun n' => amStep N cm (g n') inp abmX (t + dt) out dt :=
    (HeapJoint.callSys hs _ _ _).bind fun _ => (bufRefs_joint N (N - 1) 0).bind fun _ => HeapJoint.linTo hS _ _
  unfold abmStep abIsInitialized
  run_joint' hS hs

theorem plainStepper_joint (hS : ∀ n, LinClosed K fun (x : V) (y : U n) => part n x = y) (hs : SysJoint part combine f g) (s : PlainStepper K)
    (x : Loc) (t dt : K) : HeapJoint (W := W) part combine (s.doStep (pureSys f) x t dt) fun n => s.doStep (g n) x t dt := by
  cases s with
  | explicit s => exact (HeapJoint.callSys hs _ _ _).bind fun _ => initStepper_joint hS hs s _ _ _ _ _
  | dopri5 r => exact (fsalPrepare_joint hs _ _ _).bind fun _ => dopri5_joint hS hs _ _ _ _ _ _
  | adams M init r => exact abStep_joint hS hs _ _ _ _ _ _ _ _
  | adamsMoulton M init r => exact abmStep_joint hS hs _ _ _ _ _ _ _ _ _

end

/-! ## The integrate functions -/

section
variable {H Q : Type} {H' Q' : Fin N → Type} {S : Sided N K H H'} {J : ∀ n, Q → Q' n → Prop}

/-- the stepper and the state -/
def StepJ (part : ∀ n, V → U n) (J : ∀ n, Q → Q' n → Prop) (n : Fin N) (r : Q × V) (r' : Q' n × U n) : Prop := J n r.1 r'.1 ∧ r'.2 = part n r.2

/-- plain steppers -/
def BasicJoint (S : Sided N K H H') (part : ∀ n, V → U n) (J : ∀ n, Q → Q' n → Prop) (st : BasicStepper Q H V K)
    (st' : ∀ n, BasicStepper (Q' n) (H' n) (U n) K) : Prop :=
  ∀ q x t dt, Joint S (StepJ part J) (st.doStep q x t dt) fun n m => ∃ q', J n q q' ∧ m = (st' n).doStep q' (part n x) t dt

variable {st : BasicStepper Q H V K} {st' : ∀ n, BasicStepper (Q' n) (H' n) (U n) K}

theorem nStepsBasicLoop_joint (hst : BasicJoint S part J st st') {obs : Observer H V K} {obs' : ∀ n, Observer (H' n) (U n) K}
    (ho : ObsJoint S part obs obs') (A : TimeArith K) (t0 dt : K) : ∀ (k step : ℕ) (q : Q) (x : V) (t : K),
    Joint S (fun n (s : NState Q V K) (s' : NState (Q' n) (U n) K) => ∃ q', J n s.q q' ∧ s' = ⟨q', part n s.x, s.time⟩)
      (nStepsBasicLoop A st obs t0 dt k step ⟨q, x, t⟩)
      fun n m => ∃ q', J n q q' ∧ m = nStepsBasicLoop A (st' n) (obs' n) t0 dt k step ⟨q', part n x, t⟩ := by
  intro k
  induction k with
  | zero =>
    intro step q x t
    refine Joint.silent fun h n h' hr _ m hm => ?_
    obtain ⟨q', hq, rfl⟩ := hm
    exact ⟨_, _, rfl, ⟨q', hq, rfl⟩, hr, rfl⟩
  | succ k ih =>
    intro step q x t
    unfold nStepsBasicLoop
    refine ((ho x t).bind fun _ => (hst q x t dt).bind fun r => ih (step + 1) r.1 r.2 (A.add t0 (A.nmul (step + 1) dt))).mono ?_
    rintro n m ⟨q', hq, rfl⟩
    refine ⟨_, _, rfl, rfl, fun _ _ _ => ⟨_, _, rfl, ⟨q', hq, rfl⟩, ?_⟩⟩
    rintro b ⟨q2, x2⟩ ⟨h1, h2⟩
    dsimp only at h1 h2
    subst h2
    exact ⟨q2, h1, rfl⟩

theorem integrateNStepsBasic_joint (hst : BasicJoint S part J st st') {obs : Observer H V K} {obs' : ∀ n, Observer (H' n) (U n) K}
    (ho : ObsJoint S part obs obs') (A : TimeArith K) (q : Q) (x : V) (t0 dt : K) (k : ℕ) :
    Joint S (PairJ part) (integrateNStepsBasic A st obs q x t0 dt k)
      fun n m => ∃ q', J n q q' ∧ m = integrateNStepsBasic A (st' n) (obs' n) q' (part n x) t0 dt k := by
  unfold integrateNStepsBasic
  refine ((nStepsBasicLoop_joint hst ho A t0 dt k 0 q x t0).bind fun s => (ho s.x s.time).bind fun _ =>
    Joint.pure (b := (s.x, s.time)) (b' := fun n => (part n s.x, s.time)) (O := PairJ part) fun n => rfl).mono ?_
  rintro n m ⟨q', hq, rfl⟩
  refine ⟨_, _, rfl, ⟨q', hq, rfl⟩, ?_⟩
  rintro b b' ⟨q2, h2, rfl⟩
  exact ⟨_, _, rfl, rfl, fun _ _ _ => rfl⟩

theorem integrateConstBasic_joint (hst : BasicJoint S part J st st') {obs : Observer H V K} {obs' : ∀ n, Observer (H' n) (U n) K}
    (ho : ObsJoint S part obs obs') (A : TimeArith K) (q : Q) (x : V) (t0 t1 dt : K) :
    Joint S (PairJ part) (integrateConstBasic A st obs q x t0 t1 dt)
      fun n m => ∃ q', J n q q' ∧ m = integrateConstBasic A (st' n) (obs' n) q' (part n x) t0 t1 dt := by
  unfold integrateConstBasic
  refine ((Joint.whileM (I := fun n (s : ConstState Q V K) (s' : ConstState (Q' n) (U n) K) => ∃ q', J n s.q q' ∧ s' = ⟨q', part n s.x, s.time, s.step⟩)
    (cond' := fun n s => A.lessEqWithSign (A.add s.time dt) t1 dt)
    (q := fun n s => do
      obs' n s.x s.time
      let (q, x) ← (st' n).doStep s.q s.x s.time dt
      return ⟨q, x, A.add t0 (A.nmul (s.step + 1) dt), s.step + 1⟩) ?_ ?_ ⟨q, x, t0, 0⟩).bind
    fun s => (ho s.x s.time).bind fun _ => Joint.pure (b := (s.x, s.step)) (b' := fun n => (part n s.x, s.step)) (O := PairJ part) fun n => rfl).mono ?_
  · rintro n s s' ⟨q', hq, rfl⟩
    rfl
  · intro s
    refine ((ho s.x s.time).bind fun _ => (hst s.q s.x s.time dt).bind fun r => Joint.silent
      (Q := fun n m => ∃ q', J n r.1 q' ∧ m = Pure.pure (⟨q', part n r.2, A.add t0 (A.nmul (s.step + 1) dt), s.step + 1⟩ : ConstState (Q' n) (U n) K)) ?_).mono ?_
    · rintro h n h' hr _ m ⟨q', hq, rfl⟩
      exact ⟨_, _, rfl, ⟨q', hq, rfl⟩, hr, rfl⟩
    · rintro n m ⟨s', ⟨q', hq, rfl⟩, rfl⟩
      refine ⟨_, _, rfl, rfl, fun _ _ _ => ⟨_, _, rfl, ⟨q', hq, rfl⟩, ?_⟩⟩
      rintro b ⟨q2, x2⟩ ⟨h1, h2⟩
      dsimp only at h1 h2
      subst h2
      exact ⟨q2, h1, rfl⟩
  · rintro n m ⟨q', hq, rfl⟩
    refine ⟨_, _, rfl, ⟨_, ⟨q', hq, rfl⟩, rfl⟩, ?_⟩
    rintro b b' ⟨q2, h2, rfl⟩
    exact ⟨_, _, rfl, rfl, fun _ _ _ => rfl⟩

theorem integrateAdaptiveBasic_joint (hst : BasicJoint S part J st st') {obs : Observer H V K} {obs' : ∀ n, Observer (H' n) (U n) K}
    (ho : ObsJoint S part obs obs') (A : TimeArith K) (q : Q) (q' : ∀ n, Q' n) (hq : ∀ n, J n q (q' n)) (x : V) (t0 t1 dt : K) :
    Joint S (PairJ part) (integrateAdaptiveBasic A st obs q x t0 t1 dt)
      fun n m => m = integrateAdaptiveBasic A (st' n) (obs' n) (q' n) (part n x) t0 t1 dt := by
  unfold integrateAdaptiveBasic
  refine ((integrateConstBasic_joint hst ho A q x t0 t1 dt).bind (O' := PairJ part)
    (Q' := fun r n m => m = if A.lessWithSign (A.add t0 (A.nmul r.2 dt)) t1 dt then do
        let (_, x) ← (st' n).doStep (q' n) (part n r.1) (A.add t0 (A.nmul r.2 dt)) (A.sub t1 (A.add t0 (A.nmul r.2 dt)))
        obs' n x t1
        return (x, r.2 + 1)
      else return (part n r.1, r.2)) fun r => ?_).mono ?_
  · refine Joint.ite ?_ (Joint.pure (b' := fun n => (part n r.1, r.2)) fun n => rfl)
    refine ((hst q r.1 (A.add t0 (A.nmul r.2 dt)) (A.sub t1 (A.add t0 (A.nmul r.2 dt)))).bind fun p => (ho p.2 t1).bind fun _ =>
      Joint.pure (b := (p.2, r.2 + 1)) (b' := fun n => (part n p.2, r.2 + 1)) (O := PairJ part) fun n => rfl).mono ?_
    rintro n m rfl
    refine ⟨_, _, rfl, ⟨q' n, hq n, rfl⟩, ?_⟩
    rintro b ⟨q2, x2⟩ ⟨h1, h2⟩
    dsimp only at h1 h2
    subst h2
    exact ⟨_, _, rfl, rfl, fun _ _ _ => rfl⟩
  · rintro n m rfl
    refine ⟨_, _, rfl, ⟨q' n, hq n, rfl⟩, ?_⟩
    rintro b b' hb
    obtain rfl : b' = _ := hb
    rfl

theorem timesBasicLoop_joint (hst : BasicJoint S part J st st') {obs : Observer H V K} {obs' : ∀ n, Observer (H' n) (U n) K}
    (ho : ObsJoint S part obs obs') (A : TimeArith K) (dt : K) : ∀ (l : List K) (s : TimesState Q V K),
    Joint S (PairJ part) (timesBasicLoop A st obs dt l s) fun n m => ∃ s', TimesJ part J n s s' ∧ m = timesBasicLoop A (st' n) (obs' n) dt l s'
  | [], s => Joint.silent fun h n h' hr _ m hm => trivial
  | [t], s => by
    unfold timesBasicLoop
    refine ((ho s.x t).bind fun _ => Joint.pure (b := (s.x, s.steps)) (b' := fun n => (part n s.x, s.steps)) (O := PairJ part) fun n => rfl).mono ?_
    rintro n m ⟨s', ⟨q', hq, rfl⟩, rfl⟩
    exact ⟨_, _, rfl, rfl, fun _ _ _ => rfl⟩
  | t :: next :: rest, s => by
    have ih := timesBasicLoop_joint hst ho A dt (next :: rest)
    unfold timesBasicLoop
    refine ((ho s.x t).bind fun _ => (Joint.whileM (I := TimesJ part J)
      (cond' := fun n (s : TimesState (Q' n) (U n) K) => A.lessWithSign s.time next s.dt)
      (q := fun n s => do
        let (q, x) ← (st' n).doStep s.q s.x s.time (A.minAbs dt (A.sub next s.time))
        return ⟨q, x, A.add s.time (A.minAbs dt (A.sub next s.time)), A.minAbs dt (A.sub next s.time), s.steps + 1, s.fails⟩) ?_ ?_
      { s with time := t }).bind ih).mono ?_
    · rintro n s s' ⟨q', hq, rfl⟩
      rfl
    · intro s
      refine ((hst s.q s.x s.time (A.minAbs dt (A.sub next s.time))).bind fun r => Joint.silent (O := TimesJ part J)
        (Q := fun n m => ∃ q', J n r.1 q' ∧ m = Pure.pure (⟨q', part n r.2, A.add s.time (A.minAbs dt (A.sub next s.time)),
          A.minAbs dt (A.sub next s.time), s.steps + 1, s.fails⟩ : TimesState (Q' n) (U n) K)) ?_).mono ?_
      · rintro h n h' hr _ m ⟨q', hq, rfl⟩
        exact ⟨_, _, rfl, ⟨q', hq, rfl⟩, hr, rfl⟩
      · rintro n m ⟨s', ⟨q', hq, rfl⟩, rfl⟩
        refine ⟨_, _, rfl, ⟨q', hq, rfl⟩, ?_⟩
        rintro b ⟨q2, x2⟩ ⟨h1, h2⟩
        dsimp only at h1 h2
        subst h2
        exact ⟨q2, h1, rfl⟩
    · rintro n m ⟨s', ⟨q', hq, rfl⟩, rfl⟩
      exact ⟨_, _, rfl, rfl, fun _ _ _ => ⟨_, _, rfl, ⟨_, ⟨q', hq, rfl⟩, rfl⟩, fun b b' hb => ⟨b', hb, rfl⟩⟩⟩

end

theorem stepperObject_joint {p : Loc → K → K → StepM K V W Unit} {p' : ∀ n, Loc → K → K → StepM K (U n) (Port K) Unit}
    (h : ∀ x t dt, HeapJoint part combine (p x t dt) fun n => p' n x t dt) :
    BasicJoint (runSided W part combine) part (HeapJ part) (stepperObject p) fun n => stepperObject (p' n) := by
  intro q x t dt w
  obtain ⟨tr, v, F⟩ := h (.user 0) t dt ((q.set (.user 0) x).withWorld w.1)
  refine ⟨tr, v, ?_⟩
  rintro n w' hr m ⟨q', hq, rfl⟩
  have hrel : HeapJ part n ((q.set (.user 0) x).withWorld w.1) ((q'.set (.user 0) (part n x)).withWorld w'.1) := by
    have := HeapRel.set hq (.user 0) (v := x) (u := part n x) rfl
    exact ⟨this.state, this.num, this.flag, this.nat, trivial⟩
  obtain ⟨a1, a2⟩ := F n _ hrel _ rfl
  refine ⟨fun ρ hρ => ?_, fun k hk hρ => ?_⟩
  · have b1 := a1 ρ hρ
    simp only [stepperObject]
    cases hp : p (.user 0) t dt ((q.set (.user 0) x).withWorld w.1) with
    | ub => trivial
    | div => trivial
    | err e h1 =>
      rw [hp] at b1
      obtain ⟨h1', e1, r1, r2⟩ := b1
      refine ⟨(h1'.world, w'.2), ?_, hr, r2⟩
      rw [show p' n (.user 0) t dt ((q'.set (.user 0) (part n x)).withWorld w'.1) = _ from e1]
    | ok b h1 =>
      rw [hp] at b1
      obtain ⟨b', h1', e1, rfl, r1, r2⟩ := b1
      refine ⟨(h1', h1'.state (.user 0)), (h1'.world, w'.2), ?_, ⟨r1, (HeapRel.state r1 _).symm⟩, hr, r2⟩
      rw [show p' n (.user 0) t dt ((q'.set (.user 0) (part n x)).withWorld w'.1) = _ from e1]
  · obtain ⟨e, h1', e1, r1⟩ := a2 k hk hρ
    refine ⟨e, (h1'.world, w'.2), ?_, r1⟩
    simp only [stepperObject]
    rw [show p' n (.user 0) t dt ((q'.set (.user 0) (part n x)).withWorld w'.1) = _ from e1]

end Verif
