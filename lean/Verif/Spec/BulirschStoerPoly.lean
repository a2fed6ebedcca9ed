import Verif.Spec.BulirschStoerDense
import Mathlib.Algebra.BigOperators.Group.Finset.Basic
import Mathlib.Data.Nat.Choose.Basic
import Mathlib.Data.Nat.Factorial.Basic
import Mathlib.Algebra.Module.Basic
import Mathlib.Algebra.Field.Basic

/-!
# The dense output of the method of Bulirsch and Stoer, in exact arithmetic

Hairer, Norsett, Wanner, Solving Ordinary Differential Equations I, section II.9, "Dense output for the GBS method" (with the derivatives at the midpoint
instead of those at the end, and interval counts 2, 6, 10, ...): the state and the derivatives at the centre of the step are approximated by the
centre point and the central differences of the sweeps, each extrapolated to zero interval length.
-/

namespace Verif
open Finset
variable {K V : Type} [Field K] [AddCommGroup V] [Module K V]

/-- the central difference of order `κ` about the index `n`, with spacing 2: `Σ_c (-1)^c C(κ,c) q_{n+κ-2c}` -/
def centralDiff (K : Type) [Field K] [Module K V] (q : ℕ → V) (n κ : ℕ) : V :=
  ∑ c ∈ range (κ + 1), ((-1 : K) ^ c * (Nat.choose κ c : K)) • q (n + κ - 2 * c)

/-- the approximation of the `κ`-th derivative of `q` at the centre from sweep `j`: its `2 + 4j` intervals have length `dt / (2 + 4j)`, its centre is number
`2j + 1` -/
def centralDerivative (dt : K) (Ss : ℕ → Sweep V) (κ j : ℕ) : V :=
  (((2 + 4 * j : ℕ) : K) / (2 * dt)) ^ κ • centralDiff K (Ss j).q (2 * j + 1) κ

/-- the `κ`-th derivative of the right-hand side along the solution at the centre; the sweeps `0 .. κ/2 - 1` are too coarse for it -/
def centreDerivative (k : ℕ) (dt : K) (Ss : ℕ → Sweep V) (κ : ℕ) : V :=
  neville (fun a b => denseWeight (K := K) (a + κ / 2) (b + κ / 2)) (fun j => centralDerivative dt Ss κ (j + κ / 2)) (k - κ / 2) (k - κ / 2)

/-- the state at the centre -/
def centreState (K : Type) [Field K] [Module K V] (k : ℕ) (Ss : ℕ → Sweep V) : V :=
  neville (denseWeight (K := K)) (fun j => (Ss j).p (2 * j + 1)) k k

/-- the Taylor polynomial of degree `2k + 2` about the centre; `θ ∈ [-1,1]` is the distance to the centre in units of `dt/2` -/
def denseTaylor (k : ℕ) (dt : K) (Ss : ℕ → Sweep V) (θ : K) : V :=
  centreState K k Ss + ∑ κ ∈ range (2 * k + 2), ((θ * dt / 2) ^ (κ + 1) / (Nat.factorial (κ + 1) : K)) • centreDerivative k dt Ss κ

end Verif
