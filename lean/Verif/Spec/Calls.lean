import Verif.Model.Steppers
import Verif.Model.Integrate
import Verif.Model.Multistep
import Verif.Model.Symplectic

/-!
# Counting the evaluations of the right-hand side

The outside world is a counter.  The system function increases it with each call; nothing else does.
-/

namespace Verif
variable {K V α : Type}

/-- A system function that counts its calls.  It always returns; what it returns may depend on everything, also on the number of former calls. -/
def Counts (sys : Sys K V ℕ) : Prop := ∀ x t n, ∃ y, sys x t n = .ok y (n + 1)

/-- The same for the functions of a separable Hamiltonian system. -/
def Counts1 (f : V → M ℕ V) : Prop := ∀ x n, ∃ y, f x n = .ok y (n + 1)

/-- The same for the acceleration of a second order equation. -/
def Counts2 (sys : Sys2 K V ℕ) : Prop := ∀ q p t n, ∃ y, sys q p t n = .ok y (n + 1)

/-- The program returns and calls the system function exactly `c` times, whatever the memory contains. -/
def TakesCalls (c : ℕ) (p : StepM K V ℕ α) : Prop := ∀ h, ∃ a h', p h = .ok a h' ∧ h'.world = h.world + c

/-- The number of evaluations in one step of an explicit stepper: the number of stages. -/
def ExplicitStepper.evaluations : ExplicitStepper K → ℕ
  | .euler => 1
  | .generic T => T.a.length + 1
  | .rk4 => 4
  | .rk4Classic => 4
  | .cashKarp => 6
  | .cashKarpClassic => 6
  | .fehlberg => 13
  | .midpoint m => m + 1

/-- The number of evaluations in one step of a stepper with error estimate. -/
def ErrorStepper.evaluations : ErrorStepper K → ℕ
  | .generic T _ => T.a.length + 1
  | .cashKarp => 6
  | .cashKarpClassic => 6
  | .fehlberg => 13

/-- The number of evaluations in one step of a stepper that does the first steps of a multistep method. -/
def InitStepper.evaluations : InitStepper K → ℕ
  | .explicit s => s.evaluations
  | .extrapolation kmax => (kmax + 1) * (kmax + 2) + 1

/-- The costs of a step of `adams_bashforth` with `N` steps, when `c` steps have been done: a step of the initialising stepper (which is given the
derivative), or one single evaluation. -/
def abCost (N : ℕ) (init : InitStepper K) (c : ℕ) : ℕ := if c + 1 < N then init.evaluations else 1

/-- the counter after a step -/
def abNext (N c : ℕ) : ℕ := if c + 1 < N then c + 1 else c

/-! ## Integration -/

section
variable {Q W S T : Type}

/-- In a world with the counter `calls`: the stepper object has a mode (fresh or not, number of steps done so far, ...).  A step in mode `m` takes
`cost m` calls, and afterwards the stepper is in mode `next m`. -/
def BasicStepper.Costs {σ : Type} (calls : W → ℕ) (mode : Q → σ) (cost : σ → ℕ) (next : σ → σ) (st : BasicStepper Q W S T) : Prop :=
  ∀ q x t dt w q' x' w', st.doStep q x t dt w = .ok (q', x') w' → calls w' = calls w + cost (mode q) ∧ mode q' = next (mode q)

/-- The costs of `n` steps that begin in mode `m`. -/
def totalCost {σ : Type} (cost : σ → ℕ) (next : σ → σ) (m : σ) : ℕ → ℕ
  | 0 => 0
  | n + 1 => cost m + totalCost cost next (next m) n

/-- Each trial takes between `lo` and `hi` calls. -/
def ControlledStepper.Takes (calls : W → ℕ) (lo hi : ℕ) (st : ControlledStepper Q W S T) : Prop :=
  ∀ q x t dt w r w', st.tryStep q x t dt w = .ok r w' → calls w' ≤ calls w + hi ∧ (r.success = true → calls w + lo ≤ calls w') ∧ calls w ≤ calls w'

/-- The observer does not call the system function. -/
def Observer.Quiet (calls : W → ℕ) (obs : Observer W S T) : Prop := ∀ x t w w', obs x t w = .ok () w' → calls w' = calls w

end
end Verif
