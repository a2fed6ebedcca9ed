import Verif.Spec.DenseRk
import Verif.Model.Rosenbrock
import Mathlib.Algebra.Module.LinearMap.Basic

/-!
# The Rosenbrock method, its controller and its dense output, on values
-/

namespace Verif
variable {K V W Mat : Type}

/-- What a step determines: the stages `g1 .. g5`, the fourth-order result before the last correction, and the last
stage `g6`, which is the error estimate. -/
structure RosStages (V : Type) where
  g1 : V
  g2 : V
  g3 : V
  g4 : V
  g5 : V
  y : V
  g6 : V

section
variable [Add K] [Sub K] [Mul K] [Div K] [IntCast K] [StateOps K V]

/-- The result of the step. -/
def RosStages.x (r : RosStages V) (K : Type) [IntCast K] [StateOps K V] : V :=
  lin [((lit 1 : K), r.y), (lit 1, r.g6)]

/-- The steps of the method, without memory. -/
def rosStep (C : RosCoef K) (solve : K → Mat → V → V) (sys : Sys K V W) (jac : Jac K V W Mat) (x : V) (t dt : K) :
    M W (RosStages V) := do
  let k1 ← sys x t
  let r ← jac x t
  let s := solve (lit 1 / C.gamma / dt) r.1
  let g1 := s (lin [(lit 1, k1), (dt * C.d1, r.2)])
  let k2 ← sys (lin [(lit 1, x), (C.a21, g1)]) (t + C.c2 * dt)
  let g2 := s (lin [(lit 1, k2), (dt * C.d2, r.2), (C.c21 / dt, g1)])
  let k3 ← sys (lin [(lit 1, x), (C.a31, g1), (C.a32, g2)]) (t + C.c3 * dt)
  let g3 := s (lin [(lit 1, k3), (dt * C.d3, r.2), (C.c31 / dt, g1), (C.c32 / dt, g2)])
  let k4 ← sys (lin [(lit 1, x), (C.a41, g1), (C.a42, g2), (C.a43, g3)]) (t + C.c4 * dt)
  let g4 := s (lin [(lit 1, k4), (dt * C.d4, r.2), (C.c41 / dt, g1), (C.c42 / dt, g2), (C.c43 / dt, g3)])
  let y5 := lin [(lit 1, x), (C.a51, g1), (C.a52, g2), (C.a53, g3), (C.a54, g4)]
  let k5 ← sys y5 (t + dt)
  let g5 := s (lin [(lit 1, k5), (C.c51 / dt, g1), (C.c52 / dt, g2), (C.c53 / dt, g3), (C.c54 / dt, g4)])
  let y := lin [((lit 1 : K), y5), (lit 1, g5)]
  let k6 ← sys y (t + dt)
  let g6 := s (lin [(lit 1, k6), (C.c61 / dt, g1), (C.c62 / dt, g2), (C.c63 / dt, g3), (C.c64 / dt, g4),
    (C.c65 / dt, g5)])
  pure ⟨g1, g2, g3, g4, g5, y, g6⟩

/-- One trial of the controller with memory `m`: step, error, decision. -/
def rosTrial (P : RosParams K V) (C : RosCoef K) (solve : K → Mat → V → V) (sys : Sys K V W) (jac : Jac K V W Mat)
    (m : RosMem K) (x : V) (t dt : K) : M W (Trial K (RosStages V) × RosMem K) :=
  if (!P.O.eq P.maxDt (lit 0) && P.O.time.lessWithSign P.maxDt dt dt) = true then pure (.limited P.maxDt, m)
  else do
    let r ← rosStep C solve sys jac x t dt
    let err := P.error (r.x K) x r.g6
    let d := rosDecide P.O P.maxDt m dt err
    pure (if d.1 then .accepted r err d.2.1 else .rejected r err d.2.1, d.2.2)

/-! ## Dense output -/

/-- The last step, for the purposes of the dense output. -/
structure RosLast (K V : Type) where
  xOld : V
  tOld : K
  stages : RosStages V

/-- What a user of `rosenbrock4_dense_output` can observe and influence. -/
structure RosDense (K V W : Type) where
  x : V
  t : K
  dt : K
  mem : RosMem K
  last : Option (RosLast K V)
  user : ℕ → V
  world : W

/-- `sum d2i gi` -/
def rosCont3 (C : RosCoef K) (r : RosStages V) : V :=
  lin [(C.d21, r.g1), (C.d22, r.g2), (C.d23, r.g3), (C.d24, r.g4), (C.d25, r.g5)]
/-- `sum d3i gi` -/
def rosCont4 (C : RosCoef K) (r : RosStages V) : V :=
  lin [(C.d31, r.g1), (C.d32, r.g2), (C.d33, r.g3), (C.d34, r.g4), (C.d35, r.g5)]

/-- The interpolant of the last step, which leads to `xNew` at `tNew`. -/
def rosInterpolant (C : RosCoef K) (s : RosLast K V) (xNew : V) (tNew t : K) : V :=
  let θ := (t - s.tOld) / (tNew - s.tOld)
  lin [(lit 1 - θ, s.xOld), (θ, xNew), (θ * (lit 1 - θ), rosCont3 C s.stages),
    (θ * (lit 1 - θ) * θ, rosCont4 C s.stages)]

/-- The heap contains the state `a` of the abstract machine. -/
structure RosDense.InHeap (C : RosCoef K) (h : Heap K V W) (a : RosDense K V W) : Prop where
  x : currentState h = a.x
  t : currentTime h = a.t
  dt : currentTimeStep h = a.dt
  mem : rosMem h = a.mem
  last : ∀ s, a.last = some s → previousState h = s.xOld ∧ previousTime h = s.tOld ∧
    h.state rCont3 = rosCont3 C s.stages ∧ h.state rCont4 = rosCont4 C s.stages
  user : ∀ n, h.state (.user n) = a.user n
  world : h.world = a.world

/-- The outcome of the trials of one `do_step`. -/
inductive RosTrials (K V : Type) where
  /-- a trial was accepted; time, next step size and memory of the controller -/
  | done (r : RosStages V) (t dt : K) (m : RosMem K)
  /-- an exception; time, step size and memory at that moment -/
  | threw (e : Err) (t dt : K) (m : RosMem K)

/-- The trials of one `do_step`: at most `n` and one more.  The last one leads to an exception even if it is
accepted. -/
def rosTrials (P : RosParams K V) (C : RosCoef K) (solve : K → Mat → V → V) (sys : Sys K V W) (jac : Jac K V W Mat)
    (x : V) (t : K) : ℕ → RosMem K → K → W → Res W (RosTrials K V)
  | 0, m, dt, w =>
      match rosTrial P C solve sys jac m x t dt w with
      | .ok (.limited dt', m') w' => .ok (.threw .stepAdjustment t dt' m') w'
      | .ok (.rejected _ _ dt', m') w' => .ok (.threw .stepAdjustment t dt' m') w'
      | .ok (.accepted _ _ dt', m') w' => .ok (.threw .stepAdjustment (t + dt) dt' m') w'
      | .err e w' => .ok (.threw e t dt m) w'
      | .ub => .ub
      | .div => .div
  | n + 1, m, dt, w =>
      match rosTrial P C solve sys jac m x t dt w with
      | .ok (.limited dt', m') w' => rosTrials P C solve sys jac x t n m' dt' w'
      | .ok (.rejected _ _ dt', m') w' => rosTrials P C solve sys jac x t n m' dt' w'
      | .ok (.accepted r _ dt', m') w' => .ok (.done r (t + dt) dt' m') w'
      | .err e w' => .ok (.threw e t dt m) w'
      | .ub => .ub
      | .div => .div

/-- `do_step` on values. -/
def RosDense.step (P : RosParams K V) (C : RosCoef K) (solve : K → Mat → V → V) (sys : Sys K V W)
    (jac : Jac K V W Mat) (a : RosDense K V W) : Res (RosDense K V W) (K × K) :=
  match rosTrials P C solve sys jac a.x a.t defaultMaxSteps a.mem a.dt a.world with
  | .ok (.done r t dt m) w => .ok (a.t, t) ⟨r.x K, t, dt, m, some ⟨a.x, a.t, r⟩, a.user, w⟩
  | .ok (.threw e t dt m) w => .err e ⟨a.x, t, dt, m, none, a.user, w⟩
  | .err e w => .err e ⟨a.x, a.t, a.dt, a.mem, none, a.user, w⟩
  | .ub => .ub
  | .div => .div

/-- One call on values.  `calc_state` is meaningful only if there is a last step. -/
def RosDense.call (P : RosParams K V) (C : RosCoef K) (solve : K → Mat → V → V) (sys : Sys K V W)
    (jac : Jac K V W Mat) (a : RosDense K V W) : DenseCall K → Res (RosDense K V W) (Option (K × K))
  | .init x0 t0 dt0 => .ok none ⟨a.user x0, t0, dt0, a.mem, none, a.user, a.world⟩
  | .step =>
      match a.step P C solve sys jac with
      | .ok r a' => .ok (some r) a'
      | .err e a' => .err e a'
      | .ub => .ub
      | .div => .div
  | .calcAt t x =>
      match a.last with
      | some s => .ok none ⟨a.x, a.t, a.dt, a.mem, a.last,
          Function.update a.user x (rosInterpolant C s a.x a.t t), a.world⟩
      | none => .ub

/-- The same call as a method call. -/
noncomputable def rosDenseCall (P : RosParams K V) (C : RosCoef K) (solve : K → Mat → V → V) (sys : Sys K V W)
    (jac : Jac K V W Mat) : DenseCall K → StepM K V W (Option (K × K))
  | .init x0 t0 dt0 => do rosDenseInit (.user x0) t0 dt0; return none
  | .step => do let r ← rosDenseDoStep P C solve sys jac; return some r
  | .calcAt t x => do rosDenseCalcState t (.user x); return none

end

/-! ## The defining equations of the method -/

/-- `solve` solves linear systems: `solve c J b` is a solution `g` of `c g - J g = b`. -/
def Solves [Semiring K] [AddCommGroup V] [Module K V] (solve : K → (V →ₗ[K] V) → V → V) (c : K) (J : V →ₗ[K] V) : Prop :=
  ∀ b, c • solve c J b - J (solve c J b) = b

/-- The step from `x` with stages `r` satisfies the equations of the Rosenbrock method with right-hand side `f`, Jacobian
`J` and time derivative `ft`: in each stage a linear system with the same matrix `1/(gamma dt) - J`. -/
structure IsRosenbrock [Field K] [AddCommGroup V] [Module K V] (C : RosCoef K) (f : V → K → V) (J : V →ₗ[K] V) (ft : V)
    (x : V) (t dt : K) (r : RosStages V) (x1 : V) : Prop where
  s1 : (1 / (C.gamma * dt)) • r.g1 - J r.g1 = f x t + (dt * C.d1) • ft
  s2 : (1 / (C.gamma * dt)) • r.g2 - J r.g2 = f (x + C.a21 • r.g1) (t + C.c2 * dt) + (dt * C.d2) • ft
    + (C.c21 / dt) • r.g1
  s3 : (1 / (C.gamma * dt)) • r.g3 - J r.g3 = f (x + C.a31 • r.g1 + C.a32 • r.g2) (t + C.c3 * dt) + (dt * C.d3) • ft
    + (C.c31 / dt) • r.g1 + (C.c32 / dt) • r.g2
  s4 : (1 / (C.gamma * dt)) • r.g4 - J r.g4 = f (x + C.a41 • r.g1 + C.a42 • r.g2 + C.a43 • r.g3) (t + C.c4 * dt)
    + (dt * C.d4) • ft + (C.c41 / dt) • r.g1 + (C.c42 / dt) • r.g2 + (C.c43 / dt) • r.g3
  s5 : (1 / (C.gamma * dt)) • r.g5 - J r.g5 =
    f (x + C.a51 • r.g1 + C.a52 • r.g2 + C.a53 • r.g3 + C.a54 • r.g4) (t + dt)
    + (C.c51 / dt) • r.g1 + (C.c52 / dt) • r.g2 + (C.c53 / dt) • r.g3 + (C.c54 / dt) • r.g4
  y : r.y = x + C.a51 • r.g1 + C.a52 • r.g2 + C.a53 • r.g3 + C.a54 • r.g4 + r.g5
  s6 : (1 / (C.gamma * dt)) • r.g6 - J r.g6 = f r.y (t + dt)
    + (C.c61 / dt) • r.g1 + (C.c62 / dt) • r.g2 + (C.c63 / dt) • r.g3 + (C.c64 / dt) • r.g4 + (C.c65 / dt) • r.g5
  x1 : x1 = r.y + r.g6

end Verif
