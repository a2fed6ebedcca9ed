import Verif.Spec.Midpoint
import Verif.Spec.ButcherTableau

/-!
# Gragg's modified midpoint rule as a function of the right-hand side
-/

namespace Verif
variable {K V W : Type}

/-- Whenever a call of the system function returns, it has produced `f x t`; it may throw, fail to return and
have side effects. -/
def Returns (sys : Sys K V W) (f : V → K → V) : Prop :=
  ∀ x t w v w', sys x t w = .ok v w' → v = f x t

variable [Field K] [AddCommGroup V] [Module K V]

/-- `n` leap-frog steps `x_{i+1} = x_{i-1} + 2h f(x_i, t_i)`, from `x0` and `x1` (at time `th`); returns the last
two points. -/
def gragg (f : V → K → V) (h : K) : ℕ → K → V → V → V × V
  | 0, _, x0, x1 => (x0, x1)
  | n + 1, th, x0, x1 => gragg f h n (th + h) x1 (x0 + (2 * h) • f x1 th)

/-- Gragg's scheme with `m` sub-steps of size `h = dt / m`: an Euler step, `m - 1` leap-frog steps, and the smoothed
final value `(x_{m-1} + x_m + h f(x_m)) / 2`. -/
def graggValue (f : V → K → V) (m : ℕ) (x : V) (t dt : K) : V :=
  let h := dt / m
  let r := gragg f h (m - 1) (t + h) x (x + h • f x t)
  (1 / 2 : K) • (r.1 + r.2 + h • f r.2 (t + m * h))

end Verif
