import Verif.Spec.Multistep

/-! # Runs of the Adams methods for a right-hand side without side effects -/

namespace Verif
variable {K V W : Type}

/-- A right-hand side without side effects. -/
def pureSys (f : V → K → V) : Sys K V W := fun x t => pure (f x t)

/-- Do `p 0`, ..., `p (n-1)`. -/
def repeatStep (p : ℕ → StepM K V W Unit) : ℕ → StepM K V W Unit
  | 0 => pure ()
  | n + 1 => do
      repeatStep p n
      p n

section
variable [Add K] [Sub K] [Mul K] [Div K] [IntCast K] [Neg K] [StateOps K V]

/-- The derivatives at the states `X n`, `X (n-1)`, ..., `X (n-N+1)`. -/
def lastDerivs (N : ℕ) (f : V → K → V) (X : ℕ → V) (T : ℕ → K) (n : ℕ) : List V :=
  (List.range N).map fun j => f (X (n - j)) (T (n - j))

/-- `X 0, X 1, ...` is what the Adams-Bashforth method with `N` steps and initialising stepper `init` produces at the times
`T 0, T 1, ...`: the first `N-1` steps are done by the initialising stepper, the others by the formula with the
derivatives at the last `N` states. -/
structure AbSolution (N : ℕ) (coef : List K) (init : InitStepper K) (f : V → K → V) (X : ℕ → V) (T : ℕ → K) (dt : K) :
    Prop where
  start : ∀ i, i + 1 < N → init.recipe (W := Unit) (pureSys f) (X i) (f (X i) (T i)) (T i) dt () = .ok (X (i + 1)) ()
  step : ∀ i, N ≤ i + 1 → X (i + 1) = abFormula coef (X i) dt (lastDerivs N f X T i)

/-- The same for the predictor-corrector method: the formula `cm` is applied to the derivative at the predicted state and
the derivatives at the last states. -/
structure AbmSolution (N : ℕ) (cb cm : List K) (init : InitStepper K) (f : V → K → V) (X : ℕ → V) (T : ℕ → K) (dt : K) :
    Prop where
  start : ∀ i, i + 1 < N → init.recipe (W := Unit) (pureSys f) (X i) (f (X i) (T i)) (T i) dt () = .ok (X (i + 1)) ()
  step : ∀ i, N ≤ i + 1 → X (i + 1) = abFormula cm (X i) dt
    (f (abFormula cb (X i) dt (lastDerivs N f X T i)) (T i + dt) :: lastDerivs N f X T i)

end
end Verif
