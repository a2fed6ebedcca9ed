import Verif.Model.BulirschStoer
import Verif.Spec.AdaptiveAdams
import Verif.Spec.ExtReal
import Verif.Spec.Midpoint

/-!
# Histories of calls of `bulirsch_stoer`, and what a try means
-/

namespace Verif
variable {K V W : Type}

/-- the public calls, and anything the user does between them with the objects they own (and with the rest of the world) -/
inductive BsCall (K V W : Type) where
  | try1 (resized : Bool) (sys : Sys K V W) (x : Loc) (t dt : K)
  | try2 (resized : Bool) (sys : Sys K V W) (x dxdt : Loc) (t dt : K)
  | try3 (resized : Bool) (sys : Sys K V W) (inp : Loc) (t : K) (out : Loc) (dt : K)
  | try4 (resized : Bool) (sys : Sys K V W) (inp dxdt : Loc) (t : K) (out : Loc) (dt : K)
  | reset
  | user (change : Heap K V W → Heap K V W)

/-- What the user passes is not itself undefined behaviour. -/
def BsCall.Defined : BsCall K V W → Prop
  | .try1 _ sys _ _ _ => sys.Defined
  | .try2 _ sys _ _ _ _ => sys.Defined
  | .try3 _ sys _ _ _ _ => sys.Defined
  | .try4 _ sys _ _ _ _ _ => sys.Defined
  | _ => True

section
variable [Add K] [Sub K] [Mul K] [Div K] [Neg K] [IntCast K] [StateOps K V]

/-- run a call -/
def BsCall.run (P : BsParams K V) : BsCall K V W → M (BsState K V W) Unit
  | .try1 resized sys x t dt => do let _ ← bsTry1 P resized sys x t dt
  | .try2 resized sys x dxdt t dt => do let _ ← bsTry2 P resized sys x dxdt t dt
  | .try3 resized sys inp t out dt => do let _ ← bsTry3 P resized sys inp t out dt
  | .try4 resized sys inp dxdt t out dt => do let _ ← bsTry4 P resized sys inp dxdt t out dt
  | .reset => fun s => .ok () ⟨s.ctl.reset, s.heap⟩
  | .user change => fun s => .ok () ⟨s.ctl, change s.heap⟩

/-- Run calls one after the other, whether they throw or not. -/
def runBsCalls (P : BsParams K V) : List (BsCall K V W) → M (BsState K V W) Unit
  | [] => pure ()
  | c :: cs => do orElse (c.run P) (); runBsCalls P cs

end

/-- the order lies in `2 .. m_k_max - 1`, and it is 4 in the first step after a reset -/
def BsCtl.Valid (c : BsCtl K) : Prop := 2 ≤ c.kopt ∧ c.kopt ≤ 7 ∧ (c.first = true → c.kopt = 4)

/-- The objects a try works with can be told apart: the input and the derivative are not members that are overwritten, and they are not the
output. -/
structure BsApart (inp dxdt out : Loc) : Prop where
  inp_owner : ¬ inp.ownedBy [.midp, .extrap]
  dxdt_owner : ¬ dxdt.ownedBy [.midp, .extrap]
  out_owner : ¬ out.ownedBy [.midp, .extrap]
  inp_out : inp ≠ out
  dxdt_out : dxdt ≠ out
  inp_err : inp ≠ bsErr
  dxdt_err : dxdt ≠ bsErr
  out_err : out ≠ bsErr

/-- An object that a try does not own and that is not its output has the same value before and after. -/
def BsFrame (out : Loc) (h h' : Heap K V W) : Prop :=
  ∀ l, l ≠ out → l ≠ bsErr → ¬ l.ownedBy [.midp, .extrap] → h'.state l = h.state l

/-- Properties of the function `pow` that are used: the roots of 0.02 in the table of minimal factors lie in `(0,1]`, the power of a
nonnegative number is nonnegative, and the power of a number above 1 is at least 1. -/
structure XR.PowOk (R : BsRules XR) (pow : XR → XR → XR) (eps : XR) : Prop where
  facmin : ∀ i, 1 ≤ i → i ≤ 8 → ∃ m : ℝ, 0 < m ∧ m ≤ 1 ∧ bsFacmin (XR.ops pow eps) i = .fin m
  nonneg : ∀ a k, 1 ≤ k → k ≤ 8 → XR.le (.fin 0) a = true → XR.le (.fin 0) (pow a (R.expo k)) = true
  one_le : ∀ a k, 1 ≤ k → k ≤ 8 → XR.lt (.fin 1) a = true → XR.le (.fin 1) (pow a (R.expo k)) = true

end Verif

namespace Verif
variable {K V W : Type} [Add K] [Sub K] [Mul K] [Div K] [Neg K] [IntCast K] [StateOps K V]

/-- From `x` (with derivative `d`) in the world `w` the step to `y` was accepted: for some `k`, `y` is what `extrapolation_stepper< 2k+2 >`
computes (with the same calls of the system function, `w'` is the world afterwards), and the error checker's value for its error estimate is
below 1. -/
def BsAccepted (P : BsParams K V) (sys : Sys K V W) (x d : V) (t dt : K) (w : W) (y : V) (w' : W) : Prop :=
  ∃ k e, 1 ≤ k ∧ k ≤ 8 ∧ extrapolationErrStep k sys x d t dt w = .ok (y, e) w' ∧ P.ops.lt (P.checker.error x d e dt).2 (lit 1) = true

/-- The step was rejected: the error checker's value is not below 1. -/
def BsRejected (P : BsParams K V) (sys : Sys K V W) (x d : V) (t dt : K) (w w' : W) : Prop :=
  ∃ k y e, 1 ≤ k ∧ k ≤ 8 ∧ extrapolationErrStep k sys x d t dt w = .ok (y, e) w' ∧ P.ops.lt (P.checker.error x d e dt).2 (lit 1) = false

/-- What a try reports, for the output value `y`: success and the time `t + dt`, or failure and the old time (the step may also fail because it
is longer than the limit; then nothing was computed). -/
def BsTried (P : BsParams K V) (sys : Sys K V W) (x d : V) (t dt : K) (w : W) (r : TryOut K) (y : V) (w' : W) : Prop :=
  (r.success = true ∧ r.t = t + dt ∧ BsAccepted P sys x d t dt w y w') ∨
  (r.success = false ∧ r.t = t ∧ (BsRejected P sys x d t dt w w' ∨ (bsTooLong P dt = true ∧ r.dt = P.maxDt ∧ w' = w)))

end Verif

namespace Verif
open XR

/-- The step size `r.dt` after a try with step size `d`, tolerance `ε` of the time comparisons, limit `m` (0: no limit):
a successful try multiplies it by a positive factor, a failed try by a factor in `(0,1)`; the only exception is the second failure in a row with a
step not longer than `50/3 ε`, which may leave it as it is.  A try after a failed one does not make the step longer.  The limit is observed unless the step is
left as it is. -/
def BsStepSize (ε d m : ℝ) (lastRej : Bool) (r : TryOut XR) : Prop :=
  ∃ d' : ℝ, r.dt = fin d' ∧
    (r.success = true → ∃ q, 0 < q ∧ d' = d * q) ∧
    (r.success = false → (∃ q, 0 < q ∧ q < 1 ∧ d' = d * q) ∨ (lastRej = true ∧ |d| ≤ 50 / 3 * ε ∧ d' = d)) ∧
    (lastRej = true → |d'| ≤ |d|) ∧
    (m ≠ 0 → |d'| ≤ |m| ∨ (lastRej = true ∧ d' = d ∧ |d| ≤ |m| + ε))

end Verif
