import Verif.Spec.ControlledRk
import Verif.Model.DenseRk

/-!
# The dense output stepper on values

Abstract machines without memory layout: no buffers, no flags that say which buffer is the current one.
-/

namespace Verif
variable {K V W α : Type}

/-! ## Simulation -/

/-- The outcome `r` of a program and the outcome `s` of an abstract machine correspond: both return the same value,
throw the same exception, have undefined behaviour or do not return, and the states reached are related by `R`. -/
def SameRes {H A : Type} (R : H → A → Prop) (r : Res H α) (s : Res A α) : Prop :=
  match r, s with
  | .ok a h, .ok a' w => a = a' ∧ R h w
  | .err e h, .err e' w => e = e' ∧ R h w
  | .ub, .ub => True
  | .div, .div => True
  | _, _ => False

/-! ## Basic stepper -/

/-- What the methods of the dense output stepper show. -/
structure DenseView (K V : Type) where
  /-- `current_state()` -/
  x : V
  /-- `current_time()` -/
  t : K
  /-- `current_time_step()` -/
  dt : K
  /-- `previous_state()` -/
  xOld : V
  /-- `previous_time()` -/
  tOld : K

/-- The accessors, evaluated in a heap. -/
def denseView (h : Heap K V W) : DenseView K V :=
  ⟨currentState h, currentTime h, currentTimeStep h, previousState h, previousTime h⟩

/-- What a user of the dense output stepper of `euler` can observe and influence: the accessors, the slope of the last
step, the user's own objects, and the outside world. -/
structure EulerDense (K V W : Type) where
  view : DenseView K V
  slope : V
  user : ℕ → V
  world : W

def eulerDense (h : Heap K V W) : EulerDense K V W :=
  ⟨denseView h, h.state mDxdt, fun n => h.state (.user n), h.world⟩

/-- A call of a method of a dense output stepper; user objects are given by their number. -/
inductive DenseCall (K : Type) where
  | init (x0 : ℕ) (t0 dt0 : K)
  | step
  | calcAt (t : K) (x : ℕ)

section
variable [Add K] [Sub K] [Mul K] [Div K] [IntCast K] [StateOps K V]

/-- One call on values: `initialize` sets current state, time and step size; `do_step` makes an Euler step and
shifts current to previous; `calc_state` evaluates the line through the previous state with the slope of the last
step. -/
def EulerDense.call (sys : Sys K V W) (a : EulerDense K V W) : DenseCall K → Res (EulerDense K V W) (Option (K × K))
  | .init x0 t0 dt0 => .ok none ⟨⟨a.user x0, t0, dt0, a.view.xOld, a.view.tOld⟩, a.slope, a.user, a.world⟩
  | .step =>
      match sys a.view.x a.view.t a.world with
      | .ok k w => .ok (some (a.view.t, a.view.t + a.view.dt))
          ⟨⟨lin [(lit 1, a.view.x), (a.view.dt, k)], a.view.t + a.view.dt, a.view.dt, a.view.x, a.view.t⟩, k, a.user, w⟩
      | .err e w => .err e ⟨a.view, a.slope, a.user, w⟩
      | .ub => .ub
      | .div => .div
  | .calcAt t x => .ok none
      ⟨a.view, a.slope, Function.update a.user x (lin [(lit 1, a.view.xOld), (t - a.view.tOld, a.slope)]), a.world⟩

/-- The same call as a method call. -/
def eulerDenseCall (teq : K → K → Bool) (sys : Sys K V W) : DenseCall K → StepM K V W (Option (K × K))
  | .init x0 t0 dt0 => do denseInit (.user x0) t0 dt0; return none
  | .step => do let r ← denseDoStep eulerImpl sys; return some r
  | .calcAt t x => do denseCalcState teq t (.user x); return none

end

/-- A sequence of calls that ends at the first exception; the results are collected. -/
def runSeq {H C : Type} (call : C → M H α) : List C → M H (List α)
  | [] => pure []
  | c :: cs => do
      let r ← call c
      let rs ← runSeq call cs
      return r :: rs

/-! ## Controlled FSAL stepper (Dormand-Prince) -/

/-- What is known about the last step: where it began, and the stages. -/
structure LastStep (K V : Type) where
  xOld : V
  tOld : K
  kOld : V
  k3 : V
  k4 : V
  k5 : V
  k6 : V
  /-- the derivative at the current state -/
  k7 : V

/-- What a user of the dense output stepper of `controlled_runge_kutta< runge_kutta_dopri5 >` can observe and
influence: current state, time and step size; the derivative at the current state if it is known already; the last
step unless there was none since `initialize` or since an exception; the user's own objects; the outside world. -/
structure DopriDense (K V W : Type) where
  x : V
  t : K
  dt : K
  k : Option V
  last : Option (LastStep K V)
  user : ℕ → V
  world : W

/-- The heap contains the state `a` of the abstract machine. -/
structure DopriDense.InHeap (h : Heap K V W) (a : DopriDense K V W) : Prop where
  x : currentState h = a.x
  t : currentTime h = a.t
  dt : currentTimeStep h = a.dt
  flag : h.flag mDerivInit = a.k.isSome
  k : ∀ k, a.k = some k → h.state (getCurrentDeriv (h.flag mCurX1)) = k
  last : ∀ s, a.last = some s → previousState h = s.xOld ∧ previousTime h = s.tOld ∧
    h.state (getOldDeriv (h.flag mCurX1)) = s.kOld ∧
    h.state (mK 3) = s.k3 ∧ h.state (mK 4) = s.k4 ∧ h.state (mK 5) = s.k5 ∧ h.state (mK 6) = s.k6 ∧ a.k = some s.k7
  user : ∀ n, h.state (.user n) = a.user n
  world : h.world = a.world

/-- The outcome of the trials of one `do_step`. -/
inductive Trials (K V : Type) where
  /-- a trial was accepted; time and next step size -/
  | done (r : Dopri5Result V) (t dt : K)
  /-- an exception; the values of time and step size at that moment -/
  | threw (e : Err) (t dt : K)

section
variable [Add K] [Sub K] [Mul K] [Div K] [IntCast K] [StateOps K V]

/-- One trial with the Dormand-Prince method. -/
def dopri5Trial (P : CtrlParams K V) : Recipe K V W (Trial K (Dopri5Result V)) := fun sys x k1 t dt =>
  if P.adjuster.checkStepSizeLimit dt = false then pure (.limited P.adjuster.maxDt)
  else do
    let r ← dopri5Step sys x k1 t dt
    let err := (P.checker.error x k1 (dopri5Error k1 dt r) dt).2
    if P.gtOne err = true then
      pure (.rejected r err (P.adjuster.decreaseStep dt err P.errorOrder))
    else pure (.accepted r err (P.adjuster.increaseStep dt err P.stepperOrder))

/-- The trials of one `do_step` from `(x,t)`, all with the same derivative `k`: at most `n` and one more.  The last
one leads to an exception even if it is accepted. -/
def dopri5Trials (P : CtrlParams K V) (sys : Sys K V W) (x k : V) (t : K) : ℕ → K → W → Res W (Trials K V)
  | 0, dt, w =>
      match dopri5Trial P sys x k t dt w with
      | .ok (.limited dt') w' => .ok (.threw .stepAdjustment t dt') w'
      | .ok (.rejected _ _ dt') w' => .ok (.threw .stepAdjustment t dt') w'
      | .ok (.accepted _ _ dt') w' => .ok (.threw .stepAdjustment (t + dt) dt') w'
      | .err e w' => .ok (.threw e t dt) w'
      | .ub => .ub
      | .div => .div
  | n + 1, dt, w =>
      match dopri5Trial P sys x k t dt w with
      | .ok (.limited dt') w' => dopri5Trials P sys x k t n dt' w'
      | .ok (.rejected _ _ dt') w' => dopri5Trials P sys x k t n dt' w'
      | .ok (.accepted r _ dt') w' => .ok (.done r (t + dt) dt') w'
      | .err e w' => .ok (.threw e t dt) w'
      | .ub => .ub
      | .div => .div

/-- The derivative at the current state: known, or evaluated now. -/
def DopriDense.deriv (sys : Sys K V W) (a : DopriDense K V W) : M W V :=
  match a.k with
  | some k => pure k
  | none => sys a.x a.t

/-- `do_step` on values. -/
def DopriDense.step (P : CtrlParams K V) (sys : Sys K V W) (a : DopriDense K V W) : Res (DopriDense K V W) (K × K) :=
  match a.deriv sys a.world with
  | .ok k w =>
      match dopri5Trials P sys a.x k a.t defaultMaxSteps a.dt w with
      | .ok (.done r t dt) w' =>
          .ok (a.t, t) ⟨r.x, t, dt, some r.k7, some ⟨a.x, a.t, k, r.k3, r.k4, r.k5, r.k6, r.k7⟩, a.user, w'⟩
      | .ok (.threw e t dt) w' => .err e ⟨a.x, t, dt, some k, none, a.user, w'⟩
      | .err e w' => .err e ⟨a.x, a.t, a.dt, a.k, a.last, a.user, w'⟩
      | .ub => .ub
      | .div => .div
  | .err e w => .err e ⟨a.x, a.t, a.dt, a.k, a.last, a.user, w⟩
  | .ub => .ub
  | .div => .div

/-- The continuous extension of a Dormand-Prince step, at time `t` in the step from `s.tOld` to `tNew`. -/
def dopri5Interpolant (s : LastStep K V) (tNew t : K) : V :=
  let b := dopri5DenseB ((t - s.tOld) / (tNew - s.tOld))
  lin ((lit 1, s.xOld) :: (b.map ((tNew - s.tOld) * ·)).zip [s.kOld, s.k3, s.k4, s.k5, s.k6, s.k7])

/-- One call on values.  `calc_state` is meaningful only if there is a last step. -/
def DopriDense.call (P : CtrlParams K V) (sys : Sys K V W) (a : DopriDense K V W) :
    DenseCall K → Res (DopriDense K V W) (Option (K × K))
  | .init x0 t0 dt0 => .ok none ⟨a.user x0, t0, dt0, none, none, a.user, a.world⟩
  | .step =>
      match a.step P sys with
      | .ok r a' => .ok (some r) a'
      | .err e a' => .err e a'
      | .ub => .ub
      | .div => .div
  | .calcAt t x =>
      match a.last with
      | some s => .ok none ⟨a.x, a.t, a.dt, a.k, a.last,
          Function.update a.user x (dopri5Interpolant s a.t t), a.world⟩
      | none => .ub

/-- The same call as a method call. -/
noncomputable def dopriDenseCall (P : CtrlParams K V) (sys : Sys K V W) : DenseCall K → StepM K V W (Option (K × K))
  | .init x0 t0 dt0 => do fsalDenseInit (.user x0) t0 dt0; return none
  | .step => do let r ← fsalDenseDoStep P dopri5ErrImpl sys; return some r
  | .calcAt t x => do fsalDenseCalcState t (.user x); return none

end

/-- The outcome `r` of a program is allowed by the outcome `s` of an abstract machine: as `SameRes`, but a program may
do anything where the machine leaves the behaviour undefined. -/
def Allowed {H A : Type} (R : H → A → Prop) (r : Res H α) (s : Res A α) : Prop := s = .ub ∨ SameRes R r s

end Verif
