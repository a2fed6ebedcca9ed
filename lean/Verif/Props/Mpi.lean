import Verif.Lemmas.MpiRun
import Verif.Lemmas.MpiPlain
import Verif.Props.Commute
import Verif.Props.ControlledRunWitness
import Verif.Spec.Checker
import Mathlib.Order.Lattice
import Mathlib.Algebra.BigOperators.Fin

/-!
# C91, C92: integrations distributed over several nodes
-/

namespace Verif
variable {K W : Type} {N d : ℕ}

section
variable [Add K] [Sub K] [Mul K] [Div K] [IntCast K] [Neg K]

attribute [local instance] StateOps.componentwise

theorem mapM_ofFn_some {α β : Type} {n : ℕ} (f : α → Option β) (a : Fin n → α) (b : Fin n → β) (h : ∀ i, f (a i) = some (b i)) :
    (List.ofFn a).mapM f = some (List.ofFn b) := by
  induction n with
  | zero => rfl
  | succ n ih =>
    rw [List.ofFn_succ, List.ofFn_succ, List.mapM_cons, h 0, ih _ (fun i => b i.succ) fun i => h i.succ]
    rfl

theorem mpiCombine_data (O : NumOps K) (a : Fin (N + 1) → List K) : mpiCombine O (List.ofFn fun n => .data (a n)) = some (.data (List.ofFn a)) := by
  rw [List.ofFn_succ]
  simp only [mpiCombine]
  rw [mapM_ofFn_some Msg.data? _ (fun i => a i.succ) fun _ => rfl, List.ofFn_succ]
  rfl

theorem getD_ofFn {α : Type} {n : ℕ} (f : Fin n → α) (i : Fin n) (a : α) : (List.ofFn f).getD i a = f i := by
  simp [List.getD_eq_getElem?_getD]

/-- gathering the data of all nodes yields the whole state -/
theorem Distribution.whole_parts (D : Distribution N d) (x : Fin d → K) : D.whole (List.ofFn fun n => List.ofFn (D.part n x)) = x := by
  funext j
  unfold Distribution.whole
  rw [getD_ofFn, getD_ofFn]
  simp [Distribution.part]

/-- the system function that gathers the whole state computes the parts of `f( x , t )` -/
theorem gatherSys_joint (O : NumOps K) (D : Distribution (N + 1) d) (f : (Fin d → K) → K → Fin d → K) :
    SysJoint D.part (mpiCombine O) f (gatherSys D f) := by
  intro x t
  refine ⟨[(fun n => .data (List.ofFn (D.part n x)), .data (List.ofFn fun n => List.ofFn (D.part n x)))], ?_, fun n => ⟨fun ρ => ?_, fun k hk => ?_⟩⟩
  · intro e he
    rw [List.mem_singleton] at he
    subst he
    exact mpiCombine_data O _
  · simp only [gatherSys, allGather, collective, M.bind_apply, M.pure_apply, List.map_cons, List.map_nil, List.cons_append, List.nil_append]
    rw [D.whole_parts]
  · obtain rfl : k = 0 := by simpa using hk
    exact ⟨.user 0, ⟨[], some (.data (List.ofFn (D.part n x)))⟩, rfl, rfl⟩

theorem relErrorLoop_ofFn (O : NumOps K) (a b c k : K) {n : ℕ} (e x v : Fin n → K) :
    relErrorLoop O a b c k (List.ofFn e) (List.ofFn x) (List.ofFn v) = List.ofFn fun i => relError O a b c k (e i) (x i) (v i) := by
  induction n with
  | zero => rfl
  | succ n ih =>
    rw [List.ofFn_succ, List.ofFn_succ, List.ofFn_succ, List.ofFn_succ]
    simp only [relErrorLoop]
    rw [ih]

variable [LinearOrder K]

theorem NumOps.max_le_iff {O : NumOps K} (hO : ∀ a b, O.lt a b = decide (a < b)) (a b c : K) : O.max a b ≤ c ↔ a ≤ c ∧ b ≤ c := by
  unfold NumOps.max
  rw [hO]
  by_cases h : a < b
  · simp only [h, decide_true, if_true]
    exact ⟨fun hb => ⟨h.le.trans hb, hb⟩, fun hb => hb.2⟩
  · simp only [h, decide_false]
    exact ⟨fun ha => ⟨ha, (not_lt.1 h).trans ha⟩, fun hb => hb.1⟩

theorem normInf_le_all {O : NumOps K} (hO : ∀ a b, O.lt a b = decide (a < b)) (c : K) (l : List K) : ∀ init : K,
    normInf O init l ≤ c ↔ init ≤ c ∧ ∀ v ∈ l, O.abs v ≤ c := by
  induction l with
  | nil => intro init; simp [normInf]
  | cons v l ih =>
    intro init
    rw [normInf, ih, NumOps.max_le_iff hO]
    simp only [List.mem_cons, forall_eq_or_imp]
    tauto

theorem foldl_max_le_all {O : NumOps K} (hO : ∀ a b, O.lt a b = decide (a < b)) (c : K) (l : List K) : ∀ init : K,
    l.foldl O.max init ≤ c ↔ init ≤ c ∧ ∀ v ∈ l, v ≤ c := by
  induction l with
  | nil => intro init; simp
  | cons v l ih =>
    intro init
    rw [List.foldl_cons, ih, NumOps.max_le_iff hO]
    simp only [List.mem_cons, forall_eq_or_imp]
    tauto

/-- `all_reduce` -/
theorem mpiCombine_num {O : NumOps K} (hO : ∀ a b, O.lt a b = decide (a < b)) (a : Fin (N + 1) → K) :
    ∃ m, mpiCombine O (List.ofFn fun n => .num (a n)) = some (.num m) ∧ ∀ c, m ≤ c ↔ ∀ n, a n ≤ c := by
  refine ⟨(List.ofFn fun i => a (Fin.succ i)).foldl O.max (a 0), ?_, fun c => ?_⟩
  · rw [List.ofFn_succ]
    simp only [mpiCombine]
    rw [mapM_ofFn_some Msg.num? _ (fun i => a i.succ) fun _ => rfl]
    rfl
  · rw [foldl_max_le_all hO]
    simp only [List.mem_ofFn, forall_exists_index, forall_apply_eq_imp_iff]
    exact ⟨fun h n => Fin.cases h.1 h.2 n, fun h => ⟨h 0, fun i => h i.succ⟩⟩

/-- the default error checker -/
theorem componentControl_params {O : NumOps K} (hO : ∀ a b, O.lt a b = decide (a < b)) (D : Distribution (N + 1) d) (epsAbs epsRel aX aDxdt maxDt : K)
    (p r : ℤ) : MpiParams D.part (mpiCombine O) (componentControl O epsAbs epsRel aX aDxdt maxDt p r d)
      fun n => componentControl O epsAbs epsRel aX aDxdt maxDt p r (D.size n) where
  gtOne _ := rfl
  adjuster _ := rfl
  stepperOrder _ := rfl
  errorOrder _ := rfl
  weights n x k e dt := by
    funext i
    simp only [componentControl, defaultErrorChecker, relErrorLoop_ofFn, Distribution.part]
    rw [getD_ofFn, getD_ofFn]
  norm x k e dt := by
    simp only [componentControl, defaultErrorChecker, relErrorLoop_ofFn]
    obtain ⟨m, h1, h2⟩ := mpiCombine_num hO (N := N) fun n => normInf O (lit 0)
      (List.ofFn fun i => relError O epsAbs epsRel aX (aDxdt * O.abs dt) (D.part n e i) (D.part n x i) (D.part n k i))
    rw [h1]
    congr 2
    refine eq_of_forall_ge_iff fun c => ?_
    rw [h2, normInf_le_all hO]
    simp only [normInf_le_all hO, List.mem_ofFn, forall_exists_index, forall_apply_eq_imp_iff, Distribution.part]
    constructor
    · intro h
      refine ⟨(h 0).1, fun j => ?_⟩
      have := (h (D.e.symm j).1).2 (D.e.symm j).2
      simpa using this
    · exact fun h n => ⟨h.1, fun i => h.2 _⟩

omit [LinearOrder K] in
theorem mpiTryStep_joint {V : Type} {U : Fin N → Type} [StateOps K V] [∀ n, StateOps K (U n)] {part : ∀ n, V → U n}
    {combine : List (Msg K) → Option (Reply K)} {f : V → K → V} {g : ∀ n, Sys K (U n) (Port K)}
    (hS : ∀ n, LinClosed K fun (x : V) (y : U n) => part n x = y) (hs : SysJoint part combine f g) {P : CtrlParams K V}
    {P' : ∀ n, CtrlParams K (U n)} (hP : MpiParams part combine P P') (s : ControlledRkStepper K) (x : Loc) (t dt : K) :
    HeapJoint (W := W) part combine (s.tryStep P (pureSys f) x t dt) fun n => s.mpiTryStep (P' n) (g n) x t dt := by
  cases s with
  | explicit s => exact mpiTryStep1_joint hS hs hP s x t dt
  | dopri5 resized => exact mpiFsalTry1_joint hS hs hP resized x t dt

/-- the integrate functions, for any way to distribute the states and any system functions that together compute `f` -/
theorem mpi_runs_like {V : Type} {U : Fin N → Type} [StateOps K V] [∀ n, StateOps K (U n)] {part : ∀ n, V → U n}
    {combine : List (Msg K) → Option (Reply K)} {f : V → K → V} {g : ∀ n, Sys K (U n) (Port K)}
    (hS : ∀ n, LinClosed K fun (x : V) (y : U n) => part n x = y) (hs : SysJoint part combine f g) {P : CtrlParams K V}
    {P' : ∀ n, CtrlParams K (U n)} (hP : MpiParams part combine P P') (s : ControlledRkStepper K) (A : TimeArith K)
    (q : Heap K V W) (q' : ∀ n, Heap K (U n) (Port K)) (hq : ∀ n, PartOf (part n) q (q' n)) : MpiAlike part combine A
      (controlledObject (W := W) (s.tryStep P (pureSys f))) (fun n => controlledObject (s.mpiTryStep (P' n) (g n))) q q' := by
  intro x t0 t1 dt k times
  have hst : CtrlJoint (runSided W part combine) part (HeapJ part) (controlledObject (s.tryStep P (pureSys f)))
      fun n => controlledObject (s.mpiTryStep (P' n) (g n)) := controlledObject_joint fun x t dt => mpiTryStep_joint hS hs hP s x t dt
  have ho : ObsJoint (runSided W part combine) part recordObserver fun _ => recordObserver := recordObserver_joint
  have hq : ∀ n, HeapJ part n q (q' n) := fun n => ⟨(hq n).state, (hq n).num, (hq n).flag, (hq n).nat, trivial⟩
  refine ⟨?_, ?_, ?_, ?_⟩
  · exact Joint.alwaysEnds ((integrateNStepsControlled_joint hst ho A q x t0 dt k).mono fun n m hm => ⟨q' n, hq n, hm⟩)
  · exact Joint.alwaysEnds (integrateConstControlled_joint hst ho A q q' hq x t0 t1 dt)
  · exact Joint.alwaysEnds ((integrateAdaptiveControlled_joint hst ho A q x t0 t1 dt).mono fun n m hm => ⟨q' n, hq n, hm⟩)
  · exact Joint.alwaysEnds ((timesControlledLoop_joint hst ho A times ⟨q, x, A.zero, dt, 0, 0⟩).mono fun n m hm => ⟨_, ⟨q' n, hq n, rfl⟩, hm⟩)

/-- **C91.**  The state is distributed over the nodes of a communicator; the system function gathers the whole state and computes the local part of
the derivative.  Then the integrate functions with a controlled Runge-Kutta stepper (default error checker and step adjuster) on the nodes always
end, in whatever order the nodes make progress, like the integration of the whole system by one process: no deadlock, the same exception or the
same times, step sizes and numbers of steps, and on every node exactly the part of the state it has.  This holds in any arithmetic, also with
rounding, if the comparison is a linear order (no NaN). -/
theorem mpi_integrate_like_sequential {O : NumOps K} (hO : ∀ a b, O.lt a b = decide (a < b)) (hN : 0 < N) (D : Distribution N d)
    (f : (Fin d → K) → K → Fin d → K) (epsAbs epsRel aX aDxdt maxDt : K) (p r : ℤ) (s : ControlledRkStepper K) (A : TimeArith K)
    (q : Heap K (Fin d → K) W) (q' : ∀ n, Heap K (Fin (D.size n) → K) (Port K)) (hq : ∀ n, PartOf (D.part n) q (q' n)) :
    let P := componentControl O epsAbs epsRel aX aDxdt maxDt p r
    MpiAlike D.part (mpiCombine O) A (controlledObject (W := W) (s.tryStep (P d) (pureSys f)))
      (fun n => controlledObject (s.mpiTryStep (P (D.size n)) (gatherSys D f n))) q q' := by
  obtain ⟨N, rfl⟩ : ∃ m, N = m + 1 := ⟨N - 1, by omega⟩
  exact mpi_runs_like (fun n => (reindex_linHom fun i => D.e ⟨n, i⟩).closed) (gatherSys_joint O D f)
    (componentControl_params hO D epsAbs epsRel aX aDxdt maxDt p r) s A q q' hq

/-- The hypotheses are met, for instance by integer arithmetic (fixed point numbers); three components on two nodes, the system is coupled. -/
example (s : ControlledRkStepper ℤ) : ∃ (O : NumOps ℤ) (D : Distribution 2 3), D.size 0 = 2 ∧ D.size 1 = 1 ∧
    MpiAlike D.part (mpiCombine O) O.time
      (controlledObject (W := Unit) (s.tryStep (componentControl O 1 0 1 1 0 5 4 3) (pureSys fun x _ i => x (i + 1) - x i)))
      (fun n => controlledObject (s.mpiTryStep (componentControl O 1 0 1 1 0 5 4 (D.size n)) (gatherSys D (fun x _ i => x (i + 1) - x i) n)))
      ⟨fun _ _ => 0, fun _ => 0, fun _ => true, fun _ => 0, ()⟩ fun _ => ⟨fun _ _ => 0, fun _ => 0, fun _ => true, fun _ => 0, ⟨[], none⟩⟩ :=
  ⟨⟨fun a b => decide (a < b), fun a b => decide (a ≤ b), fun a b => decide (a = b), fun a => |a|, fun a _ => a, 0⟩,
    ⟨![2, 1], finSigmaFinEquiv.trans (finCongr (by simp))⟩, rfl, rfl,
    mpi_integrate_like_sequential (fun _ _ => rfl) (by norm_num) _ _ _ _ _ _ _ _ _ s _ _ _ fun _ => ⟨fun _ => rfl, rfl, rfl, rfl⟩⟩

omit [LinearOrder K] in
/-- **C91**, for all plain steppers.  There is no condition on the arithmetic: nothing is reduced over the nodes. -/
theorem mpi_integrate_plain_like_sequential (O : NumOps K) (hN : 0 < N) (D : Distribution N d) (f : (Fin d → K) → K → Fin d → K)
    (s : PlainStepper K) (A : TimeArith K) (q : Heap K (Fin d → K) W) (q' : ∀ n, Heap K (Fin (D.size n) → K) (Port K))
    (hq : ∀ n, PartOf (D.part n) q (q' n)) :
    MpiAlikeBasic D.part (mpiCombine O) A (stepperObject (W := W) (s.doStep (pureSys f))) (fun n => stepperObject (s.doStep (gatherSys D f n))) q q' := by
  obtain ⟨N, rfl⟩ : ∃ m, N = m + 1 := ⟨N - 1, by omega⟩
  intro x t0 t1 dt k times
  have hst : BasicJoint (runSided W D.part (mpiCombine O)) D.part (HeapJ D.part) (stepperObject (s.doStep (pureSys f)))
      fun n => stepperObject (s.doStep (gatherSys D f n)) := stepperObject_joint fun x t dt =>
    plainStepper_joint (fun n => (reindex_linHom fun i => D.e ⟨n, i⟩).closed) (gatherSys_joint O D f) s x t dt
  have ho : ObsJoint (runSided W (D.part (K := K)) (mpiCombine O)) D.part recordObserver fun _ => recordObserver := recordObserver_joint
  have hq : ∀ n, HeapJ D.part n q (q' n) := fun n => ⟨(hq n).state, (hq n).num, (hq n).flag, (hq n).nat, trivial⟩
  refine ⟨?_, ?_, ?_, ?_⟩
  · exact Joint.alwaysEnds ((integrateNStepsBasic_joint hst ho A q x t0 dt k).mono fun n m hm => ⟨q' n, hq n, hm⟩)
  · exact Joint.alwaysEnds ((integrateConstBasic_joint hst ho A q x t0 t1 dt).mono fun n m hm => ⟨q' n, hq n, hm⟩)
  · exact Joint.alwaysEnds (integrateAdaptiveBasic_joint hst ho A q q' hq x t0 t1 dt)
  · exact Joint.alwaysEnds ((timesBasicLoop_joint hst ho A dt times ⟨q, x, A.zero, dt, 0, 0⟩).mono fun n m hm => ⟨_, ⟨q' n, hq n, rfl⟩, hm⟩)

/-- the same system, for instance with `adams_bashforth_moulton< 4 >` -/
example (O : NumOps ℤ) : ∃ D : Distribution 2 3, D.size 0 = 2 ∧ D.size 1 = 1 ∧
    MpiAlikeBasic D.part (mpiCombine O) O.time
      (stepperObject (W := Unit) ((PlainStepper.adamsMoulton 4 (.extrapolation 4) true).doStep (pureSys fun x _ i => x (i + 1) - x i)))
      (fun n => stepperObject ((PlainStepper.adamsMoulton 4 (.extrapolation 4) true).doStep (gatherSys D (fun x _ i => x (i + 1) - x i) n)))
      ⟨fun _ _ => 0, fun _ => 0, fun _ => false, fun _ => 0, ()⟩ fun _ => ⟨fun _ _ => 0, fun _ => 0, fun _ => false, fun _ => 0, ⟨[], none⟩⟩ :=
  ⟨⟨![2, 1], finSigmaFinEquiv.trans (finCongr (by simp))⟩, rfl, rfl,
    mpi_integrate_plain_like_sequential O (by norm_num) _ _ _ _ _ _ fun _ => ⟨fun _ => rfl, rfl, rfl, rfl⟩⟩

end

/-! ## Smaller communicators -/

/-- **C92**, for states that are distributed over all processes: the error norm is reduced over the communicator of the state.  (What is missing: this
is false for every other communicator, see `mpi_norm_communicator` and `mpi_subcommunicator_deadlock`.) -/
theorem mpi_communicator_partial [IntCast K] (processes : List ℕ) (x : MpiState K) (hx : x.world = processes) :
    (mpiXerr processes x).world = x.world := hx.symm

/-- The error norm is reduced over the communicator of the member `m_xerr`: always all processes, whatever the communicator of the state `x`. -/
theorem mpi_norm_communicator [IntCast K] (processes : List ℕ) (x : MpiState K) : (mpiXerr processes x).world = processes := rfl

/-- a state on one of two processes -/
example : ∃ x : MpiState ℤ, x.world = [0] ∧ (mpiXerr [0, 1] x).world = [0, 1] ∧ (mpiXerr [0, 1] x).data.length = x.data.length :=
  ⟨⟨[7], [0]⟩, rfl, rfl, rfl⟩

section
variable {V R : Type} [Add K] [Sub K] [Mul K] [Div K] [IntCast K] [Neg K] [StateOps K V]

/-- The programs of two processes.  Process 0 calls `try_step` for a state whose communicator consists of process 0 only, with a system function that
does not communicate; the norm is reduced over both processes.  Process 1 does not use the library. -/
def loneProgram (P : CtrlParams K V) (f : V → K → V) (q : Heap K V (Port K)) (x : V) (t dt : K) : (n : Fin 2) →
    M (Port K × Log V K) (TryResult (Heap K V (Port K)) V K)
  | 0 => (controlledObject (mpiTryStep1 P (ErrorStepper.cashKarpClassic (K := K)).errImpl (pureSys f))).tryStep q x t dt
  | 1 => pure ⟨q, x, t, dt, true⟩

/-- **C92 is false of the code.**  A state with a communicator that does not contain all processes cannot be integrated: `try_step` never returns, and after one
step of process 0 nothing is possible any more. -/
theorem mpi_subcommunicator_deadlock (P : CtrlParams K V) (f : V → K → V) (q : Heap K V (Port K)) (x : V) (t dt : K)
    (hlim : P.adjuster.checkStepSizeLimit dt = true) (combine : List (Msg K) → Option (Reply K)) (l0 : Fin 2 → Log V K) :
    (∀ k s r, NetRun combine (loneProgram P f q x t dt) l0 k s → ¬ s.Ended (loneProgram P f q x t dt) l0 0 r) ∧
    ∃ s, NetRun combine (loneProgram P f q x t dt) l0 1 s ∧ ∀ s', ¬ NetStep combine (loneProgram P f q x t dt) l0 s s' := by
  have h0 : ∃ e w c, loneProgram P f q x t dt 0 (⟨[], none⟩, l0 0) = .err e w ∧ w.1.waiting = some c := by
    simp only [loneProgram, controlledObject, mpiTryStep1, mpiTryStep4, hlim]
    exact ⟨_, _, _, rfl, rfl⟩
  obtain ⟨e0, w0, c0, e1, hw0⟩ := h0
  -- process 1 contributes nothing, so that nothing is received
  have inv : ∀ k s, NetRun combine (loneProgram P f q x t dt) l0 k s → s.got 0 = [] ∧ s.sent 1 = [] := by
    intro k s hrun
    induction hrun with
    | start => exact ⟨rfl, rfl⟩
    | step hrun hstep ih =>
      cases hstep with
      | contribute n e w c hn hp hw =>
        refine ⟨ih.1, ?_⟩
        match n with
        | 0 => simpa using ih.2
        | 1 => exact absurd hp (by simp [loneProgram])
      | receive n c r hc hr =>
        have := hc 1
        rw [ih.2] at this
        simp at this
  refine ⟨fun k s r hrun hend => ?_, ?_⟩
  · have h1 := hend.2
    rw [(inv k s hrun).1, e1] at h1
    cases r with
    | err e l =>
      simp only [Res.err.injEq] at h1
      rw [h1.2] at hw0
      cases hw0
    | ok a l => cases h1
    | ub => cases h1
    | div => cases h1
  · have hrun : NetRun combine (loneProgram P f q x t dt) l0 1 _ :=
      .step .start (NetStep.contribute (Net.start : Net 2 K) 0 e0 w0 c0 rfl (by exact e1) hw0)
    refine ⟨_, hrun, fun s' hs' => ?_⟩
    cases hs' with
    | contribute n e w c hn hp hw =>
      match n with
      | 0 => simp [Net.start] at hn
      | 1 => exact absurd hp (by simp [loneProgram])
    | receive n c r hc hr =>
      have := hc 1
      rw [(inv _ _ hrun).2] at this
      simp at this

/-- Without a limit of the step size the hypothesis holds. -/
example (τ : Tolerances) (dt : ℝ) : (τ.controlUpTo 1 5 4 0).adjuster.checkStepSizeLimit dt = true := by
  simp [Tolerances.controlUpTo, defaultAdjuster, checkStepSizeLimit, realOps, lit]

end

/-! ## Real numbers -/

section
variable {f : (Fin d → ℝ) → ℝ → Fin d → ℝ}

theorem part_linHom (D : Distribution N d) (n : Fin N) : LinHom ℝ (D.part (K := ℝ) n) := by
  let F : (Fin d → ℝ) →ₗ[ℝ] Fin (D.size n) → ℝ :=
    { toFun := D.part n
      map_add' := fun x y => rfl
      map_smul' := fun c x => rfl }
  exact linear_linHom F

theorem controlUpTo_params (D : Distribution (N + 1) d) (τ : Tolerances) (p q : ℕ) (maxDt : ℝ) :
    MpiParams D.part (mpiCombine (realOps 0)) (τ.controlUpTo d p q maxDt) fun n => τ.controlUpTo (D.size n) p q maxDt := by
  have h := componentControl_params (O := realOps 0) (fun _ _ => rfl) D τ.absolute τ.relative τ.aX τ.aDxdt maxDt p q
  have e : ∀ m, τ.controlUpTo m p q maxDt = componentControl (realOps 0) τ.absolute τ.relative τ.aX τ.aDxdt maxDt p q m := by
    intro m
    unfold Tolerances.controlUpTo Tolerances.checker componentControl
    simp only [lit, Int.cast_one, Int.cast_zero]
    rfl
  simp only [e]
  exact h

/-- **C91**, with C65: exact arithmetic, a smooth and Lipschitz continuous right hand side.  `integrate_adaptive` on the nodes, with any error
stepper of order `p`, always ends in whatever order the nodes make progress: either all nodes return, with time `t1` and the same number of steps,
or all throw `step_adjustment_error`. -/
theorem mpi_integrate_adaptive_ends (hN : 0 < N) (D : Distribution N d) (s : ErrorStepper ℝ) {p q : ℕ} (hp : s.toExplicit.order = some p)
    (hq : s.errorOrder = some q) (hf : GoodRhs f (p + 1)) {φ : ℝ → Fin d → ℝ} (hφ : IsFlowLine f φ) (τ : Tolerances) (hτ : τ.Valid)
    (x : Fin d → ℝ) (t0 t1 dt maxDt : ℝ) (hdt : dt ≠ 0) (ht : ¬ Beyond 0 dt t0 t1) (hm : maxDt = 0 ∨ SameDir dt maxDt)
    (o : Heap ℝ (Fin d → ℝ) Unit) (o' : ∀ n, Heap ℝ (Fin (D.size n) → ℝ) (Port ℝ)) (ho : ∀ n, PartOf (D.part n) o (o' n)) :
    ∃ r : Res (Log (Fin d → ℝ) ℝ) (AdaptResult (Fin d → ℝ) ℝ), ((∃ a l, r = .ok a l ∧ a.t = t1) ∨ ∃ l, r = .err .stepAdjustment l) ∧
      AlwaysEnds (mpiCombine (realOps 0))
        (fun n => integrateAdaptiveControlled (TimeArith.exact ℝ 0)
          (controlledObject (mpiTryStep1 (τ.controlUpTo (D.size n) p q maxDt) s.errImpl (gatherSys D f n))) recordObserver (o' n) (D.part n x) t0 t1 dt)
        (fun _ => []) fun n => r.image (fun a => ⟨D.part n a.x, a.t, a.dt, a.count⟩) (Log.mapState (D.part n)) := by
  obtain ⟨N, rfl⟩ : ∃ m, N = m + 1 := ⟨N - 1, by omega⟩
  have hall := (mpi_runs_like (fun n => (part_linHom D n).closed) (gatherSys_joint (realOps 0) D f) (controlUpTo_params D τ p q maxDt) (.explicit s)
    (TimeArith.exact ℝ 0) o o' ho x t0 t1 dt 0 []).2.2.1 () []
  have hev : Evaluates (pureSys (W := Unit) f) f := fun _ _ w => ⟨w, rfl⟩
  obtain ⟨C, hC⟩ := controlled_steppers_integrate s hp hq hev hf hφ (min t0 t1) (max t0 t1) ‖x‖
  have := (hC τ maxDt t0 dt x o () [] hτ trivial le_rfl ⟨min_le_left _ _, le_max_left _ _⟩ hdt hm).1 0 t1 le_rfl zero_le_one
    ⟨min_le_right _ _, le_max_right _ _⟩ ht
  rcases this with ⟨r, w', l', e, -, -, -, h3⟩ | ⟨w', l', e, -⟩
  · have e' : integrateAdaptiveControlled (TimeArith.exact ℝ 0) (controlledObject ((ControlledRkStepper.explicit s).tryStep (τ.controlUpTo d p q maxDt)
        (pureSys f))) recordObserver o x t0 t1 dt ((), []) = .ok r (w', [] ++ l') := e
    rw [e'] at hall
    refine ⟨.ok r ([] ++ l'), .inl ⟨r, _, rfl, ?_⟩, hall (by simp) (by simp)⟩
    have := abs_nonpos_iff.1 h3
    linarith
  · have e' : integrateAdaptiveControlled (TimeArith.exact ℝ 0) (controlledObject ((ControlledRkStepper.explicit s).tryStep (τ.controlUpTo d p q maxDt)
        (pureSys f))) recordObserver o x t0 t1 dt ((), []) = .err .stepAdjustment (w', [] ++ l') := e
    rw [e'] at hall
    exact ⟨.err .stepAdjustment ([] ++ l'), .inr ⟨_, rfl⟩, hall (by simp) (by simp)⟩

/-- Two nodes, one with the position and one with the velocity of the harmonic oscillator, from `0` to `10`, absolute and relative tolerance
`1e-6`. -/
example : ∃ (D : Distribution 2 2) (r : Res (Log (Fin 2 → ℝ) ℝ) (AdaptResult (Fin 2 → ℝ) ℝ)), (∀ n, D.size n = 1) ∧
    ((∃ a l, r = .ok a l ∧ a.t = 10) ∨ ∃ l, r = .err .stepAdjustment l) ∧
    AlwaysEnds (mpiCombine (realOps 0))
      (fun n => integrateAdaptiveControlled (TimeArith.exact ℝ 0)
        (controlledObject (mpiTryStep1 ((⟨1 / 10 ^ 6, 1 / 10 ^ 6, 1, 1⟩ : Tolerances).controlUpTo (D.size n) 5 4 0) (ErrorStepper.cashKarp (K := ℝ)).errImpl
          (gatherSys D oscillator n))) recordObserver ⟨fun _ _ => 0, fun _ => 0, fun _ => false, fun _ => 0, ⟨[], none⟩⟩ (D.part n ![0, 1]) 0 10 (1 / 10))
      (fun _ => []) fun n => r.image (fun a => ⟨D.part n a.x, a.t, a.dt, a.count⟩) (Log.mapState (D.part n)) := by
  let D : Distribution 2 2 := ⟨fun _ => 1, ⟨fun a => a.1, fun n => ⟨n, 0⟩, fun a => by rcases a with ⟨n, i⟩; rw [Subsingleton.elim i 0], fun _ => rfl⟩⟩
  obtain ⟨r, h1, h2⟩ := mpi_integrate_adaptive_ends (by norm_num) D (ErrorStepper.cashKarp (K := ℝ)) (p := 5) (q := 4) rfl rfl (oscillator_good 6)
    oscillator_solution ⟨1 / 10 ^ 6, 1 / 10 ^ 6, 1, 1⟩ ⟨by norm_num, by norm_num, by norm_num, by norm_num⟩ ![0, 1] 0 10 (1 / 10) 0 (by norm_num)
    (by norm_num [Beyond]) (.inl rfl) ⟨fun _ _ => 0, fun _ => 0, fun _ => false, fun _ => 0, ()⟩
    (fun _ => ⟨fun _ _ => 0, fun _ => 0, fun _ => false, fun _ => 0, ⟨[], none⟩⟩) fun _ => ⟨fun _ => rfl, rfl, rfl, rfl⟩
  exact ⟨D, r, fun _ => rfl, h1, h2⟩

end
end Verif
