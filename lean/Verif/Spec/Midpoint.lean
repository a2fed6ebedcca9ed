import Verif.Model.Midpoint
import Verif.Spec.RungeKutta

/-!
# The textbook formulas of the modified midpoint rule and of extrapolation
-/

namespace Verif
variable {K V W : Type} [Add K] [Sub K] [Mul K] [Div K] [IntCast K] [Neg K] [StateOps K V]

/-- The leap-frog recursion `x_{i+1} = x_{i-1} + 2h f(x_i)`; `th` is the time of `x1`, `d` the derivative
there.  Returns the last two points and the derivative at the last one. -/
def leapFrog (sys : Sys K V W) (h : K) : ℕ → K → V → V → V → M W (V × V × V)
  | 0, _, x0, x1, d => pure (x0, x1, d)
  | n + 1, th, x0, x1, d => do
      let x2 := lin [(lit 1, x0), (lit 2 * h, d)]
      let d' ← sys x2 (th + h)
      leapFrog sys h n (th + h) x1 x2 d'

/-- The modified midpoint rule with `m` sub-steps (Gragg). -/
def midpointStep (m : ℕ) : Recipe K V W := fun sys x k1 t dt => do
  let h := dt / lit m
  let x1 := lin [(lit 1, x), (h, k1)]
  let d ← sys x1 (t + h)
  let r ← leapFrog sys h (m - 1) (t + h) x x1 d
  pure (lin [(frac 1 2, r.1), (frac 1 2, r.2.1), (frac 1 2 * h, r.2.2)])

/-- Midpoint results for the interval counts number `k, k+1, ...` (`n` of them), all over the same step. -/
def midpointResults (sys : Sys K V W) (x k1 : V) (t dt : K) : ℕ → ℕ → (ℕ → V) → M W (ℕ → V)
  | 0, _, ys => pure ys
  | n + 1, k, ys => do
      let y ← midpointStep (interval k) sys x k1 t dt
      midpointResults sys x k1 t dt n (k + 1) (Function.update ys k y)

/-- The entry of Neville's tableau that combines the `d+1` results `y (k-d), ..., y k`. -/
def neville (c : ℕ → ℕ → K) (y : ℕ → V) : ℕ → ℕ → V
  | 0, k => y k
  | d + 1, k =>
      lin [(lit 1 + c k (k - (d + 1)), neville c y d k), (-c k (k - (d + 1)), neville c y d (k - 1))]

/-- The extrapolation method: midpoint results `0 .. kmax`. -/
def extrapolationResults (kmax : ℕ) : Recipe K V W (ℕ → V) := fun sys x k1 t dt => do
  let y ← midpointStep (interval 0) sys x k1 t dt
  midpointResults sys x k1 t dt kmax 1 (fun _ => y)

/-- The extrapolation method: the last entry of the tableau. -/
def extrapolationStep (kmax : ℕ) : Recipe K V W := fun sys x k1 t dt => do
  let ys ← extrapolationResults kmax sys x k1 t dt
  pure (neville (exCoeff (K := K)) ys kmax kmax)

/-- The same together with the error estimate, the difference of the last two entries. -/
def extrapolationErrStep (kmax : ℕ) : Recipe K V W (V × V) := fun sys x k1 t dt => do
  let ys ← extrapolationResults kmax sys x k1 t dt
  pure (neville (exCoeff (K := K)) ys kmax kmax,
    lin [((lit 1 : K), neville (exCoeff (K := K)) ys kmax kmax), (-lit 1, neville (exCoeff (K := K)) ys (kmax - 1) kmax)])

end Verif
