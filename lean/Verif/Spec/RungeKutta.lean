import Verif.Model.RungeKutta

/-!
# The textbook formulas of the explicit Runge-Kutta methods

Memory-free recipes, on values: `x` is the state at the beginning of the step, `k1` the derivative there.
-/

namespace Verif
variable {K V W : Type} [Add K] [Sub K] [Mul K] [Div K] [IntCast K] [StateOps K V]

/-- A step recipe: system function, state, derivative, time, step size. -/
abbrev Recipe (K V W : Type) (α : Type := V) := Sys K V W → V → V → K → K → M W α

/-- The stages of an explicit Runge-Kutta method, given the stages `ks` computed so far:
`k_i = f( x + dt * sum_j a_ij k_j , t + c_i dt )`. -/
def rkStages (sys : Sys K V W) (x : V) (t dt : K) : List (K × List K) → List V → M W (List V)
  | [], ks => pure ks
  | (c, a) :: rest, ks => do
      let k ← sys (lin ((lit 1, x) :: (a.map (· * dt)).zip ks)) (t + c * dt)
      rkStages sys x t dt rest (ks ++ [k])

/-- All stages of the method with coefficients `a` (rows) and `c`. -/
def rkAllStages (T : Tableau K) : Recipe K V W (List V) := fun sys x k1 t dt =>
  rkStages sys x t dt (T.c.tail.zip T.a) [k1]

/-- `x + dt * sum_i b_i k_i` -/
def rkResult (b : List K) (x : V) (dt : K) (ks : List V) : V :=
  lin ((lit 1, x) :: (b.map (· * dt)).zip ks)

/-- One step of the Runge-Kutta method with Butcher tableau `T`. -/
def rkStep (T : Tableau K) : Recipe K V W := fun sys x k1 t dt => do
  let ks ← rkAllStages T sys x k1 t dt
  pure (rkResult T.b x dt ks)

/-- One step together with the error estimate `dt * sum_i b2_i k_i`. -/
def rkErrStep (T : Tableau K) (b2 : List K) : Recipe K V W (V × V) := fun sys x k1 t dt => do
  let ks ← rkAllStages T sys x k1 t dt
  pure (rkResult T.b x dt ks, lin ((b2.map (· * dt)).zip ks))

/-- Euler's method. -/
def eulerStep : Recipe K V W := fun _ x k1 _ dt => pure (lin [(lit 1, x), (dt, k1)])

/-- The classical Runge-Kutta method, in its usual form. -/
def rk4ClassicStep : Recipe K V W := fun sys x k1 t dt => do
  let k2 ← sys (lin [(lit 1, x), (dt / lit 2, k1)]) (t + dt / lit 2)
  let k3 ← sys (lin [(lit 1, x), (dt / lit 2, k2)]) (t + dt / lit 2)
  let k4 ← sys (lin [(lit 1, x), (dt, k3)]) (t + dt)
  pure (lin [(lit 1, x), (dt / lit 6, k1), (dt / lit 3, k2), (dt / lit 3, k3), (dt / lit 6, k4)])

/-- The Cash-Karp stages `k3 .. k6` and the result. -/
def cashKarpClassicStages : Recipe K V W (V × V × V × V × V) := fun sys x k1 t dt => do
  let k2 ← sys (lin [(lit 1, x), (dt * frac 1 5, k1)]) (t + dt * frac 1 5)
  let k3 ← sys (lin [(lit 1, x), (dt * frac 3 40, k1), (dt * frac 9 40, k2)]) (t + dt * frac 3 10)
  let k4 ← sys (lin [(lit 1, x), (dt * frac 3 10, k1), (dt * frac (-9) 10, k2), (dt * frac 6 5, k3)])
    (t + dt * frac 3 5)
  let k5 ← sys (lin [(lit 1, x), (dt * frac (-11) 54, k1), (dt * frac 5 2, k2), (dt * frac (-70) 27, k3),
    (dt * frac 35 27, k4)]) (t + dt * lit 1)
  let k6 ← sys (lin [(lit 1, x), (dt * frac 1631 55296, k1), (dt * frac 175 512, k2),
    (dt * frac 575 13824, k3), (dt * frac 44275 110592, k4), (dt * frac 253 4096, k5)]) (t + dt * frac 7 8)
  pure (k3, k4, k5, k6,
    lin [(lit 1, x), (dt * frac 37 378, k1), (dt * frac 250 621, k3), (dt * frac 125 594, k4),
      (dt * frac 512 1771, k6)])

/-- The Cash-Karp step. -/
def cashKarpClassicStep : Recipe K V W := fun sys x k1 t dt => do
  let s ← cashKarpClassicStages sys x k1 t dt
  pure s.2.2.2.2

/-- The Cash-Karp step with error estimate. -/
def cashKarpClassicErrStep : Recipe K V W (V × V) := fun sys x k1 t dt => do
  let s ← cashKarpClassicStages sys x k1 t dt
  pure (s.2.2.2.2,
    lin [(dt * (frac 37 378 - frac 2825 27648), k1), (dt * (frac 250 621 - frac 18575 48384), s.1),
      (dt * (frac 125 594 - frac 13525 55296), s.2.1), (dt * frac (-277) 14336, s.2.2.1),
      (dt * (frac 512 1771 - frac 1 4), s.2.2.2.1)])

/-- What a Dormand-Prince step determines: the stages `k3 .. k6`, the new state, the derivative there. -/
structure Dopri5Result (V : Type) where
  k3 : V
  k4 : V
  k5 : V
  k6 : V
  x : V
  k7 : V

/-- The Dormand-Prince step. -/
def dopri5Step : Recipe K V W (Dopri5Result V) := fun sys x k1 t dt => do
  let k2 ← sys (lin [(lit 1, x), (dt * frac 1 5, k1)]) (t + dt * frac 1 5)
  let k3 ← sys (lin [(lit 1, x), (dt * frac 3 40, k1), (dt * frac 9 40, k2)]) (t + dt * frac 3 10)
  let k4 ← sys (lin [(lit 1, x), (dt * frac 44 45, k1), (dt * frac (-56) 15, k2), (dt * frac 32 9, k3)])
    (t + dt * frac 4 5)
  let k5 ← sys (lin [(lit 1, x), (dt * frac 19372 6561, k1), (dt * frac (-25360) 2187, k2),
    (dt * frac 64448 6561, k3), (dt * frac (-212) 729, k4)]) (t + dt * frac 8 9)
  let k6 ← sys (lin [(lit 1, x), (dt * frac 9017 3168, k1), (dt * frac (-355) 33, k2),
    (dt * frac 46732 5247, k3), (dt * frac 49 176, k4), (dt * frac (-5103) 18656, k5)]) (t + dt)
  let y := lin [(lit 1, x), (dt * frac 35 384, k1), (dt * frac 500 1113, k3), (dt * frac 125 192, k4),
    (dt * frac (-2187) 6784, k5), (dt * frac 11 84, k6)]
  let k7 ← sys y (t + dt)
  pure ⟨k3, k4, k5, k6, y, k7⟩

/-- The error estimate of a Dormand-Prince step. -/
def dopri5Error (k1 : V) (dt : K) (r : Dopri5Result V) : V :=
  lin [(dt * (frac 35 384 - frac 5179 57600), k1), (dt * (frac 500 1113 - frac 7571 16695), r.k3),
    (dt * (frac 125 192 - frac 393 640), r.k4), (dt * (frac (-2187) 6784 - frac (-92097) 339200), r.k5),
    (dt * (frac 11 84 - frac 187 2100), r.k6), (dt * frac (-1) 40, r.k7)]

end Verif
