import Verif.Model.RungeKutta
import Mathlib.Algebra.Field.Basic
import Mathlib.Algebra.BigOperators.Group.Finset.Basic

/-! # The Runge-Kutta formula of a Butcher tableau, in exact arithmetic -/

namespace Verif
open Finset
variable {K V : Type} [Field K] [AddCommGroup V] [Module K V]

/-- `a_ij`: coefficient of stage `j` in the argument of stage `i` (both counted from 0; row 0 is empty). -/
def Tableau.aij (T : Tableau K) (i j : ℕ) : K :=
  match i with
  | 0 => 0
  | i + 1 => (T.a.getD i []).getD j 0

/-- `c_i`; the first stage is always evaluated at the beginning of the step. -/
def Tableau.ci (T : Tableau K) (i : ℕ) : K :=
  match i with
  | 0 => 0
  | i + 1 => T.c.getD (i + 1) 0

/-- `b_i` -/
def Tableau.bi (T : Tableau K) (i : ℕ) : K := T.b.getD i 0

/-- Number of stages. -/
def Tableau.size (T : Tableau K) : ℕ := T.a.length + 1

/-- The point at which stage `i` evaluates the right-hand side. -/
def Tableau.stagePoint (T : Tableau K) (x : V) (dt : K) (k : ℕ → V) (i : ℕ) : V :=
  x + dt • ∑ j ∈ range i, T.aij i j • k j

/-- The time at which stage `i` evaluates the right-hand side. -/
def Tableau.stageTime (T : Tableau K) (t dt : K) (i : ℕ) : K := t + T.ci i * dt

/-- `k_i = f( x + dt * sum_{j<i} a_ij k_j , t + c_i dt )` for all stages. -/
def Tableau.IsStages (T : Tableau K) (f : V → K → V) (x : V) (t dt : K) (k : ℕ → V) : Prop :=
  ∀ i, i < T.size → k i = f (T.stagePoint x dt k i) (T.stageTime t dt i)

/-- `x + dt * sum_i b_i k_i` -/
def Tableau.result (T : Tableau K) (x : V) (dt : K) (k : ℕ → V) : V :=
  x + dt • ∑ i ∈ range T.size, T.bi i • k i

/-- `dt * sum_i b2_i k_i` -/
def Tableau.errorEstimate (T : Tableau K) (b2 : List K) (dt : K) (k : ℕ → V) : V :=
  dt • ∑ i ∈ range T.size, b2.getD i 0 • k i

/-- The system function that computes `f` and records its calls in the world. -/
def loggingSys (f : V → K → V) : Sys K V (List (V × K)) := fun x t w => .ok (f x t) (w ++ [(x, t)])

end Verif
