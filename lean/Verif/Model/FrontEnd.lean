import Verif.Model.Integrate
import Verif.Model.ControlledRk

/-!
# Front ends: `integrate`, `integrate_const` with a step checker, and the factories

`OI` is `include/boost/numeric/odeint`.  The overloads of the integrate functions that only forward (`const State &` instead of `State &`, time
ranges instead of iterators) are not repeated.
-/

namespace Verif

section Checker
variable {Q W S T α : Type}

/-- Run with a new `max_step_checker`, which is passed by value (`OI/integrate/max_step_checker.hpp:50-53`): its counter starts at zero, and the
caller does not see it.  (Simplification: the checker is not used before, and not passed by `boost::ref`.) -/
def withNewChecker (m : M (W × ℕ) α) : M W α := fun w =>
  match m (w, 0) with
  | .ok a p => .ok a p.1
  | .err e p => .err e p.1
  | .ub => .ub
  | .div => .div

/-- The same for a stepper that the adapter holds by reference: it lives in the world of the run. -/
def withHeldStepper (q : Q) (m : M (W × Q) α) : M W α := fun w =>
  match m (w, q) with
  | .ok a p => .ok a p.1
  | .err e p => .err e p.1
  | .ub => .ub
  | .div => .div

/-- `integrate_const( stepper , system , x , t0 , t1 , dt , observer , max_step_checker( max ) )` for a plain stepper
(`OI/integrate/integrate_const.hpp:38-65`).  The observer `none` is a `null_observer`, for which the other branch of the `if` is taken (lines 47-52). -/
noncomputable def integrateConstCheckedBasic (A : TimeArith T) (max : ℕ) (st : BasicStepper Q W S T) (obs : Option (Observer W S T)) (q : Q) (x : S)
    (start end_ dt : T) : M W (S × ℕ) :=
  match obs with
  | none => integrateAdaptiveBasic A st nullObserver q x start end_ dt
  | some obs => withNewChecker (integrateConstBasic A (checkedBasic max st) (checkedObserver' obs) q x start end_ dt)

/-- The same for a controlled stepper (`OI/integrate/integrate_const.hpp:38-65`). -/
noncomputable def integrateConstCheckedControlled (A : TimeArith T) (max : ℕ) (st : ControlledStepper Q W S T) (obs : Option (Observer W S T))
    (q : Q) (x : S) (start end_ dt : T) : M W (S × ℕ) :=
  match obs with
  | none => do
    let r ← integrateAdaptiveControlled A st nullObserver q x start end_ dt
    return (r.x, r.count)
  | some obs => withHeldStepper q (withNewChecker
      (integrateConstControlled A (checkedControlled max st) (checkedObserver obs) () x start end_ dt))

/-- The same for a dense output stepper (`OI/integrate/integrate_const.hpp:38-65`). -/
noncomputable def integrateConstCheckedDense (A : TimeArith T) (max : ℕ) (st : DenseStepper Q W S T) (obs : Option (Observer W S T)) (q : Q) (x : S)
    (start end_ dt : T) : M W (S × ℕ) :=
  match obs with
  | none => integrateAdaptiveDense A st nullObserver q x start end_ dt
  | some obs => withNewChecker (integrateConstDense A (checkedDense max st) (checkedObserver' obs) q x start end_ dt)

end Checker

section Factories
variable {K : Type} [Div K] [IntCast K]

/-- The arguments of `default_error_checker` and `default_step_adjuster`. -/
structure ControlArgs (K : Type) where
  epsAbs : K
  epsRel : K
  aX : K
  aDxdt : K
  maxDt : K

/-- `controlled_runge_kutta< Stepper >()`: the default arguments of `default_error_checker`
(`OI/stepper/controlled_runge_kutta.hpp:64-70`) and of `default_step_adjuster` (lines 109-111).  -/
def ControlArgs.default : ControlArgs K := ⟨frac 1 1000000, frac 1 1000000, lit 1, lit 1, lit 0⟩

/-- `make_controlled( abs_error , rel_error , stepper )` and `make_controlled( abs_error , rel_error , max_dt , stepper )`
(`OI/stepper/generation/make_controlled.hpp:70-98` and `OI/stepper/generation/generation_controlled_runge_kutta.hpp:41-52`), and
`make_dense_output` (`OI/stepper/generation/generation_dense_output_runge_kutta.hpp:42-55`): the constructors of checker and adjuster get `abs_error`,
`rel_error` and, if given, `max_dt`; the other arguments are the default ones. -/
def makeControlled (absError relError : K) (maxDt : Option K) : ControlArgs K :=
  let d : ControlArgs K := ControlArgs.default
  ⟨absError, relError, d.aX, d.aDxdt, maxDt.getD d.maxDt⟩

end Factories
end Verif
