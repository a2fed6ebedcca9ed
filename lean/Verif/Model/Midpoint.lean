import Verif.Model.RungeKutta

/-!
# `modified_midpoint` and `extrapolation_stepper`

`OI` abbreviates `/repo/include/boost/numeric/odeint`.
-/

namespace Verif
variable {K V W : Type}

/-- `m_x0`, `m_x1`, `m_dxdt` of `modified_midpoint` (`OI/stepper/modified_midpoint.hpp:158-160`) -/
def mpX0 : Loc := .priv .midp 0
@[inherit_doc mpX0] def mpX1 : Loc := .priv .midp 1
@[inherit_doc mpX0] def mpDxdt : Loc := .priv .midp 2

/-- `m_table[i]` and `m_xout` of `extrapolation_stepper` (`OI/stepper/extrapolation_stepper.hpp:277-278`) -/
def exTable (i : ℕ) : Loc := .priv .extrap (i + 1)
@[inherit_doc exTable] def exXout : Loc := .priv .extrap 0

section
variable [StateOps K V]

/-- `algebra.for_each3( a , b , c , scale_sum_swap2( f1 , f2 ) )`: `tmp = a; a = f1*b + f2*c; b = tmp`
(`OI/algebra/default_operations.hpp:407-422`).  It is used only with three different objects; for these the
element-wise loop is the same as the assignment of whole states. -/
def linSwap (a b c : Loc) (f1 f2 : K) : StepM K V W Unit := fun h =>
  .ok () ((h.set a (lin [(f1, h.state b), (f2, h.state c)])).set b (h.state a))

variable [Add K] [Sub K] [Mul K] [Div K] [IntCast K] [Neg K]

/-- the `while( i != m_steps )` loop of `modified_midpoint::do_step_impl`, with `n` iterations left
(`OI/stepper/modified_midpoint.hpp:101-110`); returns nothing, works on the members. -/
def midpointLoop (sys : Sys K V W) (h h2 : K) : ℕ → K → StepM K V W Unit
  | 0, _ => pure ()
  | n + 1, th => do
      linSwap mpX1 mpX0 mpDxdt (lit 1) h2
      let th := th + h
      callSys sys mpX1 mpDxdt th
      midpointLoop sys h h2 n th

/-- `modified_midpoint::do_step_impl` with `m_steps = m` (`OI/stepper/modified_midpoint.hpp:78-116`).
The counter is an `unsigned short` that starts at 1 and runs until it equals `m_steps`; with `m_steps = 0` it
wraps around, which makes 65535 iterations. -/
def midpointImpl (m : ℕ) : StepImpl K V W := fun sys inp dxdt t out dt => do
  let h := dt / lit m
  let h2 := lit 2 * h
  let th := t + h
  linTo mpX1 [(lit 1, inp), (h, dxdt)]
  callSys sys mpX1 mpDxdt th
  copyTo inp mpX0
  midpointLoop sys h h2 ((m + 65535) % 65536) th
  linTo out [(frac 1 2, mpX0), (frac 1 2, mpX1), (frac 1 2 * h, mpDxdt)]

/-- `m_interval_sequence[i]` (`OI/stepper/extrapolation_stepper.hpp:125`) -/
def interval (i : ℕ) : ℕ := 2 * (i + 1)

/-- `m_coeff[i][k]` (`OI/stepper/extrapolation_stepper.hpp:127-136`) -/
def exCoeff (i k : ℕ) : K :=
  let r : K := lit (interval i) / lit (interval k)
  lit 1 / (r * r - lit 1)

/-- the `for( j = k-1 ; j > 0 ; --j )` loop of `extrapolate` (`OI/stepper/extrapolation_stepper.hpp:249-257`) -/
def extrapolateLoop (k : ℕ) : ℕ → StepM K V W Unit
  | 0 => pure ()
  | j + 1 => do
      linTo (exTable j) [(lit 1 + exCoeff k (j + 1), exTable (j + 1)), (-exCoeff k (j + 1), exTable j)]
      extrapolateLoop k j

/-- `extrapolate( k , table , coeff , xest )` (`OI/stepper/extrapolation_stepper.hpp:240-262`) -/
def extrapolate (k : ℕ) (xest : Loc) : StepM K V W Unit := do
  extrapolateLoop k (k - 1)
  linTo xest [(lit 1 + exCoeff k 0, exTable 0), (-exCoeff k 0, xest)]

/-- the `for( k = 1 ; k <= m_k_max ; ++k )` loop of `extrapolation_stepper::do_step_impl`, with `n` iterations
left (`OI/stepper/extrapolation_stepper.hpp:181-186`) -/
def extrapolationLoop (sys : Sys K V W) (inp dxdt : Loc) (t : K) (out : Loc) (dt : K) :
    ℕ → ℕ → StepM K V W Unit
  | 0, _ => pure ()
  | n + 1, k => do
      midpointImpl (interval k) sys inp dxdt t (exTable (k - 1)) dt
      extrapolate k out
      extrapolationLoop sys inp dxdt t out dt n (k + 1)

/-- `extrapolation_stepper< Order >::do_step_impl` with `m_k_max = kmax = (Order-2)/2`
(`OI/stepper/extrapolation_stepper.hpp:170-187`).  The base class of `extrapolation_stepper` calls this
function also for the in-place versions of `do_step`, with `out` and `in` the same object. -/
def extrapolationImpl (kmax : ℕ) : StepImpl K V W := fun sys inp dxdt t out dt => do
  midpointImpl (interval 0) sys inp dxdt t out dt
  extrapolationLoop sys inp dxdt t out dt kmax 1

/-- the version with error estimate (`OI/stepper/extrapolation_stepper.hpp:138-154`) -/
def extrapolationErrImpl (kmax : ℕ) : ErrStepImpl K V W := fun sys inp dxdt t out dt xerr => do
  extrapolationImpl kmax sys inp dxdt t out dt
  linTo xerr [(lit 1, out), (-lit 1, exTable 0)]

/-- `do_step_impl_io` (`OI/stepper/extrapolation_stepper.hpp:189-200`), which is reached only through
`do_step_dxdt_impl( sys , x , dxdt , t , dt )` (`OI/stepper/extrapolation_stepper.hpp:202-207`) -/
def extrapolationIo (kmax : ℕ) (sys : Sys K V W) (inout dxdt : Loc) (t dt : K) : StepM K V W Unit := do
  extrapolationImpl kmax sys inout dxdt t exXout dt
  copyTo exXout inout

end
end Verif
