import Verif.Model.Mpi
import Verif.Spec.Coordinates

/-!
# Programs on several nodes

`prog n` is the program of node `n`, as a function of its port.
-/

namespace Verif
variable {K : Type} {N : ℕ} {L A : Fin N → Type}

/-- The results of collective operations that the nodes have received, and their contributions. -/
structure Net (N : ℕ) (K : Type) where
  got : Fin N → List (Reply K)
  sent : Fin N → List (Msg K)

/-- Nothing has been communicated yet. -/
def Net.start : Net N K := ⟨fun _ => [], fun _ => []⟩

/-- The nodes run asynchronously.  Either node `n`, having received the results of all collective operations it called, runs until it calls the next
one and contributes to it.  Or the result of the collective operation node `n` is waiting for arrives: this is possible as soon as all nodes have
contributed to it (the `i`-th operation one node calls is the `i`-th operation of all others), and if they all have called the same operation. -/
inductive NetStep (combine : List (Msg K) → Option (Reply K)) (prog : (n : Fin N) → M (Port K × L n) (A n)) (l0 : (n : Fin N) → L n) :
    Net N K → Net N K → Prop
  | contribute (s : Net N K) (n : Fin N) (e : Err) (w : Port K × L n) (c : Msg K) (hn : (s.sent n).length = (s.got n).length)
      (hp : prog n (⟨s.got n, none⟩, l0 n) = .err e w) (hw : w.1.waiting = some c) :
      NetStep combine prog l0 s { s with sent := Function.update s.sent n (s.sent n ++ [c]) }
  | receive (s : Net N K) (n : Fin N) (c : Fin N → Msg K) (r : Reply K) (hc : ∀ m, (s.sent m)[(s.got n).length]? = some (c m))
      (hr : combine (List.ofFn c) = some r) :
      NetStep combine prog l0 s { s with got := Function.update s.got n (s.got n ++ [r]) }

/-- `k` steps of the nodes, in any order -/
inductive NetRun (combine : List (Msg K) → Option (Reply K)) (prog : (n : Fin N) → M (Port K × L n) (A n)) (l0 : (n : Fin N) → L n) :
    ℕ → Net N K → Prop
  | start : NetRun combine prog l0 0 Net.start
  | step {k : ℕ} {s s' : Net N K} : NetRun combine prog l0 k s → NetStep combine prog l0 s s' → NetRun combine prog l0 (k + 1) s'

/-- Node `n` has ended with the outcome `r`, a value or an exception, and nobody waits for it. -/
def Net.Ended (prog : (n : Fin N) → M (Port K × L n) (A n)) (l0 : (n : Fin N) → L n) (s : Net N K) (n : Fin N) (r : Res (L n) (A n)) : Prop :=
  (s.sent n).length = (s.got n).length ∧ prog n (⟨s.got n, none⟩, l0 n) =
    match r with
    | .ok a l => .ok a (⟨[], none⟩, l)
    | .err e l => .err e (⟨[], none⟩, l)
    | .ub => .ub
    | .div => .div

/-- In whatever order the nodes make their steps: they end after a bounded number of steps, there is no deadlock, and the outcome on node `n` is
`r n`. -/
def AlwaysEnds (combine : List (Msg K) → Option (Reply K)) (prog : (n : Fin N) → M (Port K × L n) (A n)) (l0 : (n : Fin N) → L n)
    (r : (n : Fin N) → Res (L n) (A n)) : Prop :=
  ∃ B, ∀ k s, NetRun combine prog l0 k s → k ≤ B ∧ ((∃ s', NetStep combine prog l0 s s') ∨ ∀ n, s.Ended prog l0 n (r n))

/-- The programs `prog n` on the nodes always end like the sequential program `p`, whenever that ends: with the same exception, or with the value
`out n b` on node `n` where the sequential program returns `b`.  The logs contain the same events, with the part `part n x` of every state. -/
def RunsLike {V W β : Type} {U β' : Fin N → Type} (part : ∀ n, V → U n) (combine : List (Msg K) → Option (Reply K)) (out : ∀ n, β → β' n)
    (p : M (W × Log V K) β) (prog : ∀ n, M (Port K × Log (U n) K) (β' n)) : Prop :=
  ∀ w l, p (w, l) ≠ .ub → p (w, l) ≠ .div →
    AlwaysEnds combine prog (fun n => l.mapState (part n)) fun n => (p (w, l)).image (out n) fun w => w.2.mapState (part n)

/-! ## Distributed systems -/

/-- Controllers with the same parameters on all nodes, of the parts `part n x` of the states; the error checkers compute the parts of the weighted
errors, and `combine` yields from their values the value of the checker for the whole state. -/
structure MpiParams {V : Type} {U : Fin N → Type} (part : ∀ n, V → U n) (combine : List (Msg K) → Option (Reply K)) (P : CtrlParams K V)
    (P' : ∀ n, CtrlParams K (U n)) : Prop where
  gtOne : ∀ n, (P' n).gtOne = P.gtOne
  adjuster : ∀ n, (P' n).adjuster = P.adjuster
  stepperOrder : ∀ n, (P' n).stepperOrder = P.stepperOrder
  errorOrder : ∀ n, (P' n).errorOrder = P.errorOrder
  weights : ∀ n x k e (dt : K), part n (P.checker.error x k e dt).1 = ((P' n).checker.error (part n x) (part n k) (part n e) dt).1
  norm : ∀ x k e (dt : K), combine (List.ofFn fun n => .num ((P' n).checker.error (part n x) (part n k) (part n e) dt).2) =
    some (.num (P.checker.error x k e dt).2)

/-- `d` components, distributed over `N` nodes: node `n` has `size n` of them; its component number `i` is component `e (n, i)` of the whole. -/
structure Distribution (N d : ℕ) where
  size : Fin N → ℕ
  e : (Σ n, Fin (size n)) ≃ Fin d

variable {d : ℕ}

/-- the part of the state on node `n` -/
def Distribution.part (D : Distribution N d) (n : Fin N) (x : Fin d → K) : Fin (D.size n) → K := fun i => x (D.e ⟨n, i⟩)

/-- the whole state, from the data of all nodes -/
def Distribution.whole [IntCast K] (D : Distribution N d) (l : List (List K)) : Fin d → K := fun j =>
  (l.getD (D.e.symm j).1 []).getD (D.e.symm j).2 (lit 0)

/-- A system function for node `n`: it gathers the whole state and computes the local part of the derivative. -/
def gatherSys [IntCast K] (D : Distribution N d) (f : (Fin d → K) → K → Fin d → K) (n : Fin N) : Sys K (Fin (D.size n) → K) (Port K) :=
  fun x t => do
    let l ← allGather (List.ofFn x)
    pure (D.part n (f (D.whole l) t))

/-- The members of the stepper on a node: the parts of those of the stepper `q`, and the same numbers and flags. -/
structure PartOf {V U W : Type} (L : V → U) (q : Heap K V W) (q' : Heap K U (Port K)) : Prop where
  state : ∀ l, L (q.state l) = q'.state l
  num : q'.num = q.num
  flag : q'.flag = q.flag
  nat : q'.nat = q.nat

/-- The integrate functions with the controlled steppers `st' n` on the nodes, in the states `q' n`, always end like those with `st` in the state
`q`. -/
def MpiAlike {V W Q : Type} {U Q' : Fin N → Type} (part : ∀ n, V → U n) (combine : List (Msg K) → Option (Reply K)) (A : TimeArith K)
    (st : ControlledStepper Q (W × Log V K) V K) (st' : ∀ n, ControlledStepper (Q' n) (Port K × Log (U n) K) (U n) K) (q : Q) (q' : ∀ n, Q' n) : Prop :=
  ∀ (x : V) (t0 t1 dt : K) (k : ℕ) (times : List K),
    RunsLike part combine (fun n r => (part n r.1, r.2)) (integrateNStepsControlled A st recordObserver q x t0 dt k)
      (fun n => integrateNStepsControlled A (st' n) recordObserver (q' n) (part n x) t0 dt k) ∧
    RunsLike part combine (fun n r => (part n r.1, r.2)) (integrateConstControlled A st recordObserver q x t0 t1 dt)
      (fun n => integrateConstControlled A (st' n) recordObserver (q' n) (part n x) t0 t1 dt) ∧
    RunsLike part combine (fun n r => ⟨part n r.x, r.t, r.dt, r.count⟩) (integrateAdaptiveControlled A st recordObserver q x t0 t1 dt)
      (fun n => integrateAdaptiveControlled A (st' n) recordObserver (q' n) (part n x) t0 t1 dt) ∧
    RunsLike part combine (fun n r => (part n r.1, r.2)) (integrateTimesControlled A st recordObserver q x times dt)
      (fun n => integrateTimesControlled A (st' n) recordObserver (q' n) (part n x) times dt)

/-- The same for plain steppers. -/
def MpiAlikeBasic {V W Q : Type} {U Q' : Fin N → Type} (part : ∀ n, V → U n) (combine : List (Msg K) → Option (Reply K)) (A : TimeArith K)
    (st : BasicStepper Q (W × Log V K) V K) (st' : ∀ n, BasicStepper (Q' n) (Port K × Log (U n) K) (U n) K) (q : Q) (q' : ∀ n, Q' n) : Prop :=
  ∀ (x : V) (t0 t1 dt : K) (k : ℕ) (times : List K),
    RunsLike part combine (fun n r => (part n r.1, r.2)) (integrateNStepsBasic A st recordObserver q x t0 dt k)
      (fun n => integrateNStepsBasic A (st' n) recordObserver (q' n) (part n x) t0 dt k) ∧
    RunsLike part combine (fun n r => (part n r.1, r.2)) (integrateConstBasic A st recordObserver q x t0 t1 dt)
      (fun n => integrateConstBasic A (st' n) recordObserver (q' n) (part n x) t0 t1 dt) ∧
    RunsLike part combine (fun n r => (part n r.1, r.2)) (integrateAdaptiveBasic A st recordObserver q x t0 t1 dt)
      (fun n => integrateAdaptiveBasic A (st' n) recordObserver (q' n) (part n x) t0 t1 dt) ∧
    RunsLike part combine (fun n r => (part n r.1, r.2)) (integrateTimesBasic A st recordObserver q x times dt)
      (fun n => integrateTimesBasic A (st' n) recordObserver (q' n) (part n x) times dt)

/-- `try_step( sys , x , t , dt )` on one node -/
def ControlledRkStepper.mpiTryStep {V : Type} [Add K] [Sub K] [Mul K] [Div K] [IntCast K] [Neg K] [StateOps K V] (s : ControlledRkStepper K)
    (P : CtrlParams K V) (sys : Sys K V (Port K)) (x : Loc) (t dt : K) : StepM K V (Port K) (TryOut K) :=
  match s with
  | .explicit s => mpiTryStep1 P s.errImpl sys x t dt
  | .dopri5 resized => mpiFsalTry1 P dopri5ErrImpl resized sys x t dt

/-- The default error checker and step adjuster, for `d` components of any number type. -/
def componentControl [Add K] [Sub K] [Mul K] [Div K] [IntCast K] [Neg K] (O : NumOps K) (epsAbs epsRel aX aDxdt maxDt : K) (stepperOrder errorOrder : ℤ)
    (d : ℕ) : CtrlParams K (Fin d → K) where
  gtOne e := O.lt (lit 1) e
  checker := {
    error := fun x dxdt err dt =>
      let r := (defaultErrorChecker O epsAbs epsRel aX aDxdt).error (List.ofFn x) (List.ofFn dxdt) (List.ofFn err) dt
      (fun i => r.1.getD i (lit 0), r.2) }
  adjuster := defaultAdjuster O maxDt
  stepperOrder := stepperOrder
  errorOrder := errorOrder

end Verif
