import Verif.Model.RungeKutta

/-!
# Symplectic steppers

Coordinates, momenta and their derivatives are states of one type `V` here (the code allows four different
types; nothing in it depends on them being different or equal).
-/

namespace Verif
variable {K V W : Type}

/-- `m_dqdt` (`OI/stepper/base/symplectic_rkn_stepper_base.hpp:301`) -/
def mDqdt : Loc := .priv .symp 0
/-- `m_dpdt` (`OI/stepper/base/symplectic_rkn_stepper_base.hpp:302`) -/
def mDpdt : Loc := .priv .symp 1

/-- A call `func( src , dst )` of one of the two functions of a separable system (they do not receive the time). -/
def callFun (f : V → M W V) (src dst : Loc) : StepM K V W Unit := fun h =>
  match f (h.state src) h.world with
  | .ok v w => .ok () (h.put dst v w)
  | .err e w => .err e (h.withWorld w)
  | .ub => .ub
  | .div => .div

section
variable [Add K] [Sub K] [Mul K] [Div K] [IntCast K] [StateOps K V]

/-- The passes `l = 1, 2, ...` of the loop, for the remaining coefficients `( m_coef_a[l] , m_coef_b[l] )`
(`OI/stepper/base/symplectic_rkn_stepper_base.hpp:213,224-232`) -/
def rknLoop (coor mom : V → M W V) (qout pout : Loc) (dt : K) : List (K × K) → StepM K V W Unit
  | [] => pure ()
  | (a, b) :: rest => do
      callFun coor pout mDqdt
      linTo qout [(lit 1, qout), (a * dt, mDqdt)]
      callFun mom qout mDpdt
      linTo pout [(lit 1, pout), (b * dt, mDpdt)]
      rknLoop coor mom qout pout dt rest

/-- `do_step_impl` for systems `( dq/dt = coor( p ) , dp/dt = mom( q ) )`: the pass `l = 0` reads the input and
writes the output (`OI/stepper/base/symplectic_rkn_stepper_base.hpp:184-234`).  The time is not used. -/
def rknStepPair (coef : List (K × K)) (coor mom : V → M W V) (qin pin qout pout : Loc) (dt : K) :
    StepM K V W Unit :=
  match coef with
  | [] => pure ()
  | (a, b) :: rest => do
      callFun coor pin mDqdt
      linTo qout [(lit 1, qin), (a * dt, mDqdt)]
      callFun mom qout mDpdt
      linTo pout [(lit 1, pin), (b * dt, mDpdt)]
      rknLoop coor mom qout pout dt rest

/-- The loop of `do_step_impl` for `dq/dt = p` (`OI/stepper/base/symplectic_rkn_stepper_base.hpp:273-280`) -/
def rknMomLoop (mom : V → M W V) (qout pout : Loc) (dt : K) : List (K × K) → StepM K V W Unit
  | [] => pure ()
  | (a, b) :: rest => do
      linTo qout [(lit 1, qout), (a * dt, pout)]
      callFun mom qout mDpdt
      linTo pout [(lit 1, pout), (b * dt, mDpdt)]
      rknMomLoop mom qout pout dt rest

/-- `do_step_impl` for systems given by `dp/dt = mom( q )` only, `dq/dt = p`
(`OI/stepper/base/symplectic_rkn_stepper_base.hpp:238-281`) -/
def rknStepMom (coef : List (K × K)) (mom : V → M W V) (qin pin qout pout : Loc) (dt : K) :
    StepM K V W Unit :=
  match coef with
  | [] => pure ()
  | (a, b) :: rest => do
      linTo qout [(lit 1, qin), (a * dt, pin)]
      callFun mom qout mDpdt
      linTo pout [(lit 1, pin), (b * dt, mDpdt)]
      rknMomLoop mom qout pout dt rest

/-- `symplectic_euler` (`OI/stepper/symplectic_euler.hpp:40-56`) -/
def symplecticEulerCoef : List (K × K) := [(lit 1, lit 1)]

/-- `symplectic_rkn_sb3a_mclachlan`, coefficients `a` (`OI/stepper/symplectic_rkn_sb3a_mclachlan.hpp:50-65`).  The
decimal constants are taken as the decimal numbers they denote, their conversion to `Value` is not modelled. -/
def sb3aA : List K :=
  let a0 := frac 40518861839525227722 100000000000000000000
  let a1 := frac (-28714404081652408900) 100000000000000000000
  let a2 := lit 1 / lit 2 - (a0 + a1)
  [a0, a1, a2, a2, a1, a0]

/-- `symplectic_rkn_sb3a_mclachlan`, coefficients `b` (`OI/stepper/symplectic_rkn_sb3a_mclachlan.hpp:67-80`) -/
def sb3aB : List K :=
  let b0 := frac (-3) 73
  let b1 := frac 17 59
  let b2 := lit 1 - lit 2 * (b0 + b1)
  [b0, b1, b2, b1, b0, lit 0]

/-- `symplectic_rkn_sb3a_mclachlan` (`OI/stepper/symplectic_rkn_sb3a_mclachlan.hpp:116-122`) -/
def sb3aCoef : List (K × K) := sb3aA.zip sb3aB

/-- `symplectic_rkn_sb3a_m4_mclachlan`, coefficients `a`; `sqrt` is the square root of the value type
(`OI/stepper/symplectic_rkn_sb3a_m4_mclachlan.hpp:46-61`) -/
def sb3aM4A (sqrt : K → K) : List K :=
  let z := sqrt (lit 7 / lit 8) / lit 3
  let a0 := lit 1 / lit 2 - z
  let a1 := lit (-1) / lit 3 + z
  let a2 := lit 2 / lit 3
  [a0, a1, a2, a1, a0]

/-- `symplectic_rkn_sb3a_m4_mclachlan`, coefficients `b` (`OI/stepper/symplectic_rkn_sb3a_m4_mclachlan.hpp:63-74`) -/
def sb3aM4B : List K :=
  let b0 := lit 1
  let b1 := lit (-1) / lit 2
  [b0, b1, b1, b0, lit 0]

/-- `symplectic_rkn_sb3a_m4_mclachlan` (`OI/stepper/symplectic_rkn_sb3a_m4_mclachlan.hpp:111-116`) -/
def sb3aM4Coef (sqrt : K → K) : List (K × K) := (sb3aM4A sqrt).zip sb3aM4B

/-- `do_step( system , x , t , dt )` and `do_step( system , q , p , t , dt )` with a pair of functions
(`OI/stepper/base/symplectic_rkn_stepper_base.hpp:107-123,135-149`) -/
def rknDoStep (coef : List (K × K)) (coor mom : V → M W V) (q p : Loc) (dt : K) : StepM K V W Unit :=
  rknStepPair coef coor mom q p q p dt

/-- the same with one function for the momentum part -/
def rknDoStepMom (coef : List (K × K)) (mom : V → M W V) (q p : Loc) (dt : K) : StepM K V W Unit :=
  rknStepMom coef mom q p q p dt

end

/-! ## velocity_verlet -/

/-- `m_a1` (`OI/stepper/velocity_verlet.hpp:247`) -/
def mA1 : Loc := .priv .verlet 0
/-- `m_a2` (`OI/stepper/velocity_verlet.hpp:247`) -/
def mA2 : Loc := .priv .verlet 1
/-- `m_first_call` (`OI/stepper/velocity_verlet.hpp:246`) -/
def mVerletFirst : Loc := .priv .verlet 2
/-- `m_current_a1` (`OI/stepper/velocity_verlet.hpp:248`) -/
def mCurrentA1 : Loc := .priv .verlet 3

/-- The system function of a second order equation, `sys( q , p , a , t )`. -/
abbrev Sys2 (K V W : Type) := V → V → K → M W V

/-- `sys( q , p , dst , t )` -/
def callSys2 (sys : Sys2 K V W) (q p dst : Loc) (t : K) : StepM K V W Unit := fun h =>
  match sys (h.state q) (h.state p) t h.world with
  | .ok v w => .ok () (h.put dst v w)
  | .err e w => .err e (h.withWorld w)
  | .ub => .ub
  | .div => .div

/-- `get_current_acc()` (`OI/stepper/velocity_verlet.hpp:220-228`), given `m_current_a1` -/
def currentAcc (currentA1 : Bool) : Loc := if currentA1 then mA1 else mA2
/-- `get_old_acc()` (`OI/stepper/velocity_verlet.hpp:230-238`), given `m_current_a1` -/
def oldAcc (currentA1 : Bool) : Loc := if currentA1 then mA2 else mA1

section
variable [Add K] [Sub K] [Mul K] [Div K] [IntCast K] [StateOps K V]

/-- `do_step( system , qin , pin , ain , qout , pout , aout , t , dt )`
(`OI/stepper/velocity_verlet.hpp:107-126`) -/
def verletStep (sys : Sys2 K V W) (qin pin ain qout pout aout : Loc) (t dt : K) : StepM K V W Unit := do
  let one : K := lit 1
  let oneHalf : K := frac 1 2
  linTo qout [(one, qin), (one * dt, pin), (oneHalf * dt * dt, ain)]
  callSys2 sys qout pin aout (t + dt)
  linTo pout [(one, pin), (oneHalf * dt, ain), (oneHalf * dt, aout)]

/-- `initialize( system , qin , pin , t )` and `initialize_acc`
(`OI/stepper/velocity_verlet.hpp:160-167,177-183`) -/
def verletInitialize (sys : Sys2 K V W) (q p : Loc) (t : K) : StepM K V W Unit := do
  let b ← getFlag mCurrentA1
  callSys2 sys q p (currentAcc b) t
  setFlag mVerletFirst false

/-- `initialize( ain )` (`OI/stepper/velocity_verlet.hpp:148-157`) -/
def verletInitializeAcc (ain : Loc) : StepM K V W Unit := do
  let b ← getFlag mCurrentA1
  copyTo ain (currentAcc b)
  setFlag mVerletFirst false

/-- `reset()` (`OI/stepper/velocity_verlet.hpp:136-139`) -/
def verletReset : StepM K V W Unit := setFlag mVerletFirst true

/-- `do_step( system , x , t , dt )`, `do_step_v1`; `resized` is the answer of the resizer
(`OI/stepper/velocity_verlet.hpp:93-104,185-209`) -/
def verletDoStep (resized : Bool) (sys : Sys2 K V W) (q p : Loc) (t dt : K) : StepM K V W Unit := do
  if resized || (← getFlag mVerletFirst) then verletInitialize sys q p t
  let b ← getFlag mCurrentA1
  verletStep sys q p (currentAcc b) q p (oldAcc b) t dt
  setFlag mCurrentA1 (!b)

end
end Verif
