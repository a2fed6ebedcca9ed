import Verif.Model.Multistep
import Verif.Model.ControlledRk
import Verif.Model.Symplectic
import Verif.Model.DenseRk

/-!
# Related runs

Vocabulary for "the same calls, made for a system and for its image under a change of coordinates".
-/

namespace Verif
variable {K V U W X α β : Type}

/-- Two outcomes correspond: both return, with related values and related worlds, or both fail in the same way.  With `lax` this is
required only if the first one returns. -/
def ResRel {H H' : Type} (lax : Prop) (A : α → β → Prop) (R : H → H' → Prop) : Res H α → Res H' β → Prop
  | .ok a h, r => ∃ b h', r = .ok b h' ∧ A a b ∧ R h h'
  | .err e h, r => lax ∨ ∃ h', r = .err e h' ∧ R h h'
  | .ub, r => lax ∨ r = .ub
  | .div, r => lax ∨ r = .div

/-- All state-valued objects are related by `S`, the outside worlds by `T`, the other members are equal. -/
structure HeapRel (S : V → U → Prop) (T : W → X → Prop) (h : Heap K V W) (h' : Heap K U X) : Prop where
  state : ∀ l, S (h.state l) (h'.state l)
  num : h'.num = h.num
  flag : h'.flag = h.flag
  nat : h'.nat = h.nat
  world : T h.world h'.world

/-- The relation is preserved by linear combinations with the same coefficients. -/
def LinClosed (K : Type) [StateOps K V] [StateOps K U] (S : V → U → Prop) : Prop :=
  ∀ l : List (K × V × U), (∀ p ∈ l, S p.2.1 p.2.2) → S (lin (l.map fun p => (p.1, p.2.1))) (lin (l.map fun p => (p.1, p.2.2)))

/-- Related states have related derivatives. -/
def SysRel (lax : Prop) (S : V → U → Prop) (T : W → X → Prop) (f : Sys K V W) (g : Sys K U X) : Prop :=
  ∀ x y t w w', S x y → T w w' → ResRel lax S T (f x t w) (g y t w')

/-- The runs `p` and `q` take related heaps to related heaps and return the same value. -/
def RunRel (lax : Prop) (S : V → U → Prop) (T : W → X → Prop) (p : StepM K V W α) (q : StepM K U X α) : Prop :=
  ∀ h h', HeapRel S T h h' → ResRel lax (· = ·) (HeapRel S T) (p h) (q h')

/-- The image of a heap: every state is mapped. -/
def Heap.map (L : V → U) (h : Heap K V W) : Heap K U W := ⟨fun l => L (h.state l), h.num, h.flag, h.nat, h.world⟩

/-- The image of an outcome. -/
def Res.mapHeap (L : V → U) : Res (Heap K V W) α → Res (Heap K U W) α
  | .ok a h => .ok a (h.map L)
  | .err e h => .err e (h.map L)
  | .ub => .ub
  | .div => .div

/-- `L` commutes with the linear combinations the algebras compute. -/
def LinHom (K : Type) [StateOps K V] [StateOps K U] (L : V → U) : Prop :=
  ∀ l : List (K × V), L (lin l) = lin (l.map fun p => (p.1, L p.2))

/-- `g` is the right-hand side `f` in the coordinates `L x`: evaluated at `L x` it returns `L` of what `f` returns at `x`, with the same
side effects, and throws when `f` does. -/
def Intertwines (L : V → U) (f : Sys K V W) (g : Sys K U W) : Prop := ∀ x t w, g (L x) t w = match f x t w with
  | .ok v w' => .ok (L v) w'
  | .err e w' => .err e w'
  | .ub => .ub
  | .div => .div

/-- The calls a user can make to the explicit, multistep and FSAL steppers; numbers denote state-valued variables of the user. -/
inductive StepCall (K : Type) where
  /-- `do_step( sys , x , t , dt )` -/
  | step1 (s : InitStepper K) (x : ℕ) (t dt : K)
  /-- `do_step( sys , x , dxdt , t , dt )` -/
  | step2 (s : InitStepper K) (x dxdt : ℕ) (t dt : K)
  /-- `do_step( sys , in , t , out , dt )` -/
  | step3 (s : InitStepper K) (x : ℕ) (t : K) (out : ℕ) (dt : K)
  /-- `do_step( sys , in , dxdt , t , out , dt )` -/
  | step4 (s : InitStepper K) (x dxdt : ℕ) (t : K) (out : ℕ) (dt : K)
  /-- `do_step( sys , x , t , dt , xerr )` -/
  | err5 (s : ErrorStepper K) (x : ℕ) (t dt : K) (e : ℕ)
  /-- `do_step( sys , x , dxdt , t , dt , xerr )` -/
  | err6 (s : ErrorStepper K) (x dxdt : ℕ) (t dt : K) (e : ℕ)
  /-- `do_step( sys , in , t , out , dt , xerr )` -/
  | err7 (s : ErrorStepper K) (x : ℕ) (t : K) (out : ℕ) (dt : K) (e : ℕ)
  /-- `do_step( sys , in , dxdt , t , out , dt , xerr )` -/
  | err8 (s : ErrorStepper K) (x dxdt : ℕ) (t : K) (out : ℕ) (dt : K) (e : ℕ)
  /-- `extrapolation_stepper::do_step( sys , in , dxdt , t , out , dt , xerr )` -/
  | extrapErr (kmax : ℕ) (x dxdt : ℕ) (t : K) (out : ℕ) (dt : K) (e : ℕ)
  /-- `runge_kutta_dopri5::do_step`, the eight versions -/
  | dopri1 (resized : Bool) (x : ℕ) (t dt : K)
  | dopri2 (x dxdt : ℕ) (t dt : K)
  | dopri3 (resized : Bool) (x : ℕ) (t : K) (out : ℕ) (dt : K)
  | dopri4 (x dxdt : ℕ) (t : K) (out dxdtOut : ℕ) (dt : K)
  | dopri5 (resized : Bool) (x : ℕ) (t dt : K) (e : ℕ)
  | dopri6 (x dxdt : ℕ) (t dt : K) (e : ℕ)
  | dopri7 (resized : Bool) (x : ℕ) (t : K) (out : ℕ) (dt : K) (e : ℕ)
  | dopri8 (x dxdt : ℕ) (t : K) (out dxdtOut : ℕ) (dt : K) (e : ℕ)
  /-- `runge_kutta_dopri5::initialize` and `reset` -/
  | dopriInit (x : ℕ) (t : K)
  | dopriInitDeriv (d : ℕ)
  | dopriReset
  /-- `adams_bashforth< N >::do_step` -/
  | adams (N : ℕ) (init : InitStepper K) (resized : Bool) (x : ℕ) (t : K) (out : ℕ) (dt : K)
  /-- `adams_bashforth< N >::initialize( stepper , sys , x , t , dt )` -/
  | adamsInit (N : ℕ) (init : InitStepper K) (x : ℕ) (t dt : K)
  | adamsReset
  /-- `adams_bashforth_moulton< N >::do_step` -/
  | adamsMoulton (N : ℕ) (init : InitStepper K) (resized : Bool) (x : ℕ) (t : K) (out : ℕ) (dt : K)

/-- What the call does. -/
def StepCall.run [Add K] [Sub K] [Mul K] [Div K] [IntCast K] [Neg K] [StateOps K V] (sys : Sys K V W) : StepCall K → StepM K V W Unit
  | .step1 s x t dt => doStep1 s.impl sys (.user x) t dt
  | .step2 s x dxdt t dt => s.io sys (.user x) (.user dxdt) t dt
  | .step3 s x t out dt => doStep3 s.impl sys (.user x) t (.user out) dt
  | .step4 s x dxdt t out dt => doStep4 s.impl sys (.user x) (.user dxdt) t (.user out) dt
  | .err5 s x t dt e => doStep5 s.errImpl sys (.user x) t dt (.user e)
  | .err6 s x dxdt t dt e => doStep6 s.errImpl sys (.user x) (.user dxdt) t dt (.user e)
  | .err7 s x t out dt e => doStep7 s.errImpl sys (.user x) t (.user out) dt (.user e)
  | .err8 s x dxdt t out dt e => doStep8 s.errImpl sys (.user x) (.user dxdt) t (.user out) dt (.user e)
  | .extrapErr kmax x dxdt t out dt e => doStep8 (extrapolationErrImpl kmax) sys (.user x) (.user dxdt) t (.user out) dt (.user e)
  | .dopri1 r x t dt => fsalStep1 dopri5Impl r sys (.user x) t dt
  | .dopri2 x d t dt => fsalStep2 dopri5Impl sys (.user x) (.user d) t dt
  | .dopri3 r x t out dt => fsalStep3 dopri5Impl r sys (.user x) t (.user out) dt
  | .dopri4 x d t out dout dt => fsalStep4 dopri5Impl sys (.user x) (.user d) t (.user out) (.user dout) dt
  | .dopri5 r x t dt e => fsalStep5 dopri5ErrImpl r sys (.user x) t dt (.user e)
  | .dopri6 x d t dt e => fsalStep6 dopri5ErrImpl sys (.user x) (.user d) t dt (.user e)
  | .dopri7 r x t out dt e => fsalStep7 dopri5ErrImpl r sys (.user x) t (.user out) dt (.user e)
  | .dopri8 x d t out dout dt e => fsalStep8 dopri5ErrImpl sys (.user x) (.user d) t (.user out) (.user dout) dt (.user e)
  | .dopriInit x t => fsalInitialize sys (.user x) t
  | .dopriInitDeriv d => fsalInitializeDeriv (.user d)
  | .dopriReset => fsalReset
  | .adams N init r x t out dt => abStep N (abCoef N) init sys r (.user x) t (.user out) dt
  | .adamsInit N init x t dt => do let _ ← abInitialize N init sys (.user x) t dt
  | .adamsReset => abReset
  | .adamsMoulton N init r x t out dt => abmStep N (abCoef N) (amCoef N) init sys r (.user x) t (.user out) dt

/-- A sequence of calls. -/
def runStepCalls [Add K] [Sub K] [Mul K] [Div K] [IntCast K] [Neg K] [StateOps K V] (sys : Sys K V W) : List (StepCall K) → StepM K V W Unit
  | [] => pure ()
  | c :: cs => do
      c.run sys
      runStepCalls sys cs

/-- Two controllers with the same parameters whose error checkers agree on related states. -/
structure CtrlRel (S : V → U → Prop) (P : CtrlParams K V) (Q : CtrlParams K U) : Prop where
  gtOne : Q.gtOne = P.gtOne
  adjuster : Q.adjuster = P.adjuster
  stepperOrder : Q.stepperOrder = P.stepperOrder
  errorOrder : Q.errorOrder = P.errorOrder
  checker : ∀ x y k l e d (dt : K), S x y → S k l → S e d → S (P.checker.error x k e dt).1 (Q.checker.error y l d dt).1 ∧
    (Q.checker.error y l d dt).2 = (P.checker.error x k e dt).2

/-- The calls a user can make to `controlled_runge_kutta` (of an error stepper, or of `runge_kutta_dopri5`) and to the dense output
steppers. -/
inductive TrialCall (K : Type) where
  /-- `try_step( sys , x , t , dt )` -/
  | try1 (s : ErrorStepper K) (x : ℕ) (t dt : K)
  /-- `try_step( sys , x , dxdt , t , dt )` -/
  | try2 (s : ErrorStepper K) (x dxdt : ℕ) (t dt : K)
  /-- `try_step( sys , in , t , out , dt )` -/
  | try3 (s : ErrorStepper K) (x : ℕ) (t : K) (out : ℕ) (dt : K)
  /-- `try_step( sys , in , dxdt , t , out , dt )` -/
  | try4 (s : ErrorStepper K) (x dxdt : ℕ) (t : K) (out : ℕ) (dt : K)
  /-- the same for `controlled_runge_kutta< runge_kutta_dopri5 >` -/
  | fsal1 (resized : Bool) (x : ℕ) (t dt : K)
  | fsal3 (x dxdt : ℕ) (t dt : K)
  | fsal4 (x dxdt : ℕ) (t : K) (out dxdtOut : ℕ) (dt : K)
  /-- `dense_output_runge_kutta< controlled_runge_kutta< runge_kutta_dopri5 > >` -/
  | denseInitialize (x : ℕ) (t dt : K)
  | denseStep
  | denseCalc (t : K) (x : ℕ)

/-- What the call does and returns: the result of `try_step`, or the interval of `do_step`. -/
noncomputable def TrialCall.run [Add K] [Sub K] [Mul K] [Div K] [IntCast K] [Neg K] [StateOps K V] (P : CtrlParams K V) (sys : Sys K V W) :
    TrialCall K → StepM K V W (Option (TryOut K) × Option (K × K))
  | .try1 s x t dt => do let r ← tryStep1 P s.errImpl sys (.user x) t dt; pure (some r, none)
  | .try2 s x d t dt => do let r ← tryStep2 P s.errImpl sys (.user x) (.user d) t dt; pure (some r, none)
  | .try3 s x t out dt => do let r ← tryStep3 P s.errImpl sys (.user x) t (.user out) dt; pure (some r, none)
  | .try4 s x d t out dt => do let r ← tryStep4 P s.errImpl sys (.user x) (.user d) t (.user out) dt; pure (some r, none)
  | .fsal1 rs x t dt => do let r ← fsalTry1 P dopri5ErrImpl rs sys (.user x) t dt; pure (some r, none)
  | .fsal3 x d t dt => do let r ← fsalTry3 P dopri5ErrImpl sys (.user x) (.user d) t dt; pure (some r, none)
  | .fsal4 x d t out dout dt => do
      let r ← fsalTry4 P dopri5ErrImpl sys (.user x) (.user d) t (.user out) (.user dout) dt; pure (some r, none)
  | .denseInitialize x t dt => do fsalDenseInit (.user x) t dt; pure (none, none)
  | .denseStep => do let r ← fsalDenseDoStep P dopri5ErrImpl sys; pure (none, some r)
  | .denseCalc t x => do fsalDenseCalcState t (.user x); pure (none, none)

/-- A sequence of calls and their results. -/
noncomputable def runTrialCalls [Add K] [Sub K] [Mul K] [Div K] [IntCast K] [Neg K] [StateOps K V] (P : CtrlParams K V) (sys : Sys K V W) :
    List (TrialCall K) → StepM K V W (List (Option (TryOut K) × Option (K × K)))
  | [] => pure []
  | c :: cs => do
      let r ← c.run P sys
      let rs ← runTrialCalls P sys cs
      pure (r :: rs)

end Verif
