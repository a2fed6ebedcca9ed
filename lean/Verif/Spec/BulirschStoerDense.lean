import Verif.Model.BulirschStoerDense
import Verif.Spec.BulirschStoer

/-!
# What `bulirsch_stoer_dense_out` computes

The method of Bulirsch and Stoer with the interval counts 2, 6, 10, ...: leap-frog sweeps over the step, extrapolated to zero interval length; and its
dense output: the Taylor polynomial about the centre of the step, with the state and the derivatives at the centre extrapolated from the central
differences of the sweeps (Hairer, Norsett, Wanner, Solving Ordinary Differential Equations I, II.9).
-/

namespace Verif
variable {K V W : Type}

/-- the points `p 0 , p 1 , ...` of a sweep and the derivatives `q 0 , q 1 , ...` there -/
structure Sweep (V : Type) where
  p : ℕ → V
  q : ℕ → V

section
variable [Add K] [Sub K] [Mul K] [Div K] [Neg K] [IntCast K] [StateOps K V]

/-- `p (i+1) = p (i-1) + 2h q i`, for `n` values of `i`; `th` is the time of `p i` -/
def sweepLoop (sys : Sys K V W) (h : K) : ℕ → ℕ → K → Sweep V → M W (Sweep V)
  | 0, _, _, S => pure S
  | n + 1, i, th, S => do
      let d ← sys (lin [(lit 1, S.p (i - 1)), (lit 2 * h, S.q i)]) (th + h)
      sweepLoop sys h n (i + 1) (th + h)
        ⟨Function.update S.p (i + 1) (lin [(lit 1, S.p (i - 1)), (lit 2 * h, S.q i)]), Function.update S.q (i + 1) d⟩

/-- the leap-frog sweep with `m` intervals of length `dt / m`: `p 0 = x`, `q 0 = k1`, `p 1 = x + h k1` -/
def sweep (m : ℕ) : Recipe K V W (Sweep V) := fun sys x k1 t dt => do
  let h := dt / lit m
  let d ← sys (lin [(lit 1, x), (h, k1)]) (t + h)
  sweepLoop sys h (m - 1) 1 (t + h) ⟨fun i => if i = 0 then x else lin [(lit 1, x), (h, k1)], fun i => if i = 0 then k1 else d⟩

/-- Gragg's smoothed value at the end of a sweep with `m` intervals of length `h` -/
def Sweep.result (S : Sweep V) (m : ℕ) (h : K) : V := lin [(frac 1 2, S.p (m - 1)), (frac 1 2, S.p m), (frac 1 2 * h, S.q m)]

/-- the sweeps number `k , k + 1 , ...` (`n` of them), all over the same step -/
def sweepsFrom (sys : Sys K V W) (x k1 : V) (t dt : K) : ℕ → ℕ → (ℕ → Sweep V) → M W (ℕ → Sweep V)
  | 0, _, Ss => pure Ss
  | n + 1, k, Ss => do
      let S ← sweep (2 + 4 * k) sys x k1 t dt
      sweepsFrom sys x k1 t dt n (k + 1) (Function.update Ss k S)

/-- the sweeps number `0 .. k` -/
def sweeps (k : ℕ) : Recipe K V W (ℕ → Sweep V) := fun sys x k1 t dt => do
  let S ← sweep 2 sys x k1 t dt
  sweepsFrom sys x k1 t dt k 1 (fun _ => S)

/-- weights of the extrapolation to zero interval length, from interval counts `2 + 4i` and `2 + 4k` -/
def denseWeight (i k : ℕ) : K :=
  lit 1 / (lit (2 + 4 * i : ℕ) / lit (2 + 4 * k : ℕ) * (lit (2 + 4 * i : ℕ) / lit (2 + 4 * k : ℕ)) - lit 1)

/-- the result of the sweeps `0 .. k`, and the error estimate: the difference to the entry of the tableau next to it -/
def denseStep (k : ℕ) (dt : K) (Ss : ℕ → Sweep V) : V × V :=
  let ys := fun j => (Ss j).result (2 + 4 * j) (dt / lit (2 + 4 * j : ℕ))
  (neville (denseWeight (K := K)) ys k k,
    lin [((lit 1 : K), neville (denseWeight (K := K)) ys k k), (-lit 1, neville (denseWeight (K := K)) ys (k - 1) k)])

/-- The step of size `dt` from `x` (with derivative `d`) in the world `w` is accepted with `k + 1` sweeps: `y` is the extrapolated value, and the error
checker's value for the error estimate is below 1. -/
def BsdAccepted (P : BsdParams K V) (sys : Sys K V W) (x d : V) (t dt : K) (w : W) (k : ℕ) (Ss : ℕ → Sweep V) (y : V) (w' : W) : Prop :=
  1 ≤ k ∧ k ≤ 8 ∧ sweeps k sys x d t dt w = .ok Ss w' ∧ y = (denseStep k dt Ss).1 ∧
    P.ops.lt (P.checker.error x d (denseStep k dt Ss).2 dt).2 (lit 1) = true

end
end Verif

/-! ## Histories of calls -/

namespace Verif
variable {K V W : Type} [Add K] [Sub K] [Mul K] [Div K] [Neg K] [IntCast K] [StateOps K V]

/-- the calls after the first step -/
inductive BsdCall (K V W : Type) where
  | step (sys : Sys K V W)
  | state (t : K)

/-- What the user passes is not itself undefined behaviour. -/
def BsdCall.Defined : BsdCall K V W → Prop
  | .step sys => sys.Defined
  | .state _ => True

/-- run a call -/
noncomputable def BsdCall.run (P : BsdParams K V) : BsdCall K V W → M (BsdState K V W) Unit
  | .step sys => do let _ ← bsdDoStep P sys
  | .state t => do let _ ← bsdCalcState t

/-- Run calls one after the other, whether they throw or not. -/
noncomputable def runBsdCalls (P : BsdParams K V) : List (BsdCall K V W) → M (BsdState K V W) Unit
  | [] => pure ()
  | c :: cs => do orElse (c.run P) (); runBsdCalls P cs

/-- `initialize`, a step, and then any calls; an exception in the first step ends the history -/
noncomputable def bsdHistory (P : BsdParams K V) (x0 : V) (t0 dt0 : K) (sys : Sys K V W) (calls : List (BsdCall K V W)) : M (BsdState K V W) Unit := do
  bsdInitialize x0 t0 dt0
  let _ ← bsdDoStep P sys
  runBsdCalls P calls

end Verif
