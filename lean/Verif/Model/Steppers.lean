import Verif.Model.RungeKutta
import Verif.Model.Midpoint

/-!
# The steppers derived from `explicit_stepper_base` and `explicit_error_stepper_base`

`OI` abbreviates `/repo/include/boost/numeric/odeint`.
-/

namespace Verif
variable {K V W : Type}

/-- The steppers that leave the choice of the first derivative evaluation to the base class
`explicit_stepper_base` or `explicit_error_stepper_base`, except `extrapolation_stepper`. -/
inductive ExplicitStepper (K : Type) where
  /-- `euler` (`OI/stepper/euler.hpp`) -/
  | euler
  /-- `explicit_generic_rk` with a user-supplied tableau (`OI/stepper/explicit_generic_rk.hpp`) -/
  | generic (T : Tableau K)
  /-- `runge_kutta4` (`OI/stepper/runge_kutta4.hpp`) -/
  | rk4
  /-- `runge_kutta4_classic` (`OI/stepper/runge_kutta4_classic.hpp`) -/
  | rk4Classic
  /-- `runge_kutta_cash_karp54` (`OI/stepper/runge_kutta_cash_karp54.hpp`) -/
  | cashKarp
  /-- `runge_kutta_cash_karp54_classic` (`OI/stepper/runge_kutta_cash_karp54_classic.hpp`) -/
  | cashKarpClassic
  /-- `runge_kutta_fehlberg78` (`OI/stepper/runge_kutta_fehlberg78.hpp`) -/
  | fehlberg
  /-- `modified_midpoint( m )` (`OI/stepper/modified_midpoint.hpp`) -/
  | midpoint (m : ℕ)

/-- The sizes of the coefficient arrays fit together (they are template parameters in the code). -/
def Tableau.WellFormed (T : Tableau K) : Prop :=
  T.c.length = T.a.length + 1 ∧ T.b.length = T.a.length + 1 ∧
    ∀ i, i < T.a.length → (T.a.getD i []).length = i + 1

/-- The stepper can be constructed and its parameters are sensible. -/
def ExplicitStepper.WellFormed : ExplicitStepper K → Prop
  | .generic T => T.WellFormed
  | .midpoint m => 1 ≤ m ∧ m < 65536
  | _ => True

section
variable [Add K] [Sub K] [Mul K] [Div K] [IntCast K] [Neg K] [StateOps K V]

/-- `do_step_impl` of the stepper (files see `ExplicitStepper`) -/
def ExplicitStepper.impl : ExplicitStepper K → StepImpl K V W
  | .euler => eulerImpl
  | .generic T => genericRkImpl T
  | .rk4 => rk4Impl
  | .rk4Classic => rk4ClassicImpl
  | .cashKarp => cashKarpImpl
  | .cashKarpClassic => cashKarpClassicImpl
  | .fehlberg => fehlbergImpl
  | .midpoint m => midpointImpl m

end

/-- `order()`, the template argument of the base class (`OI/stepper/euler.hpp:56`, `runge_kutta4.hpp:112`,
`runge_kutta4_classic.hpp:49-51`, `runge_kutta_cash_karp54.hpp:156`, `runge_kutta_cash_karp54_classic.hpp:53-55`,
`runge_kutta_fehlberg78.hpp:301`, `modified_midpoint.hpp:48-50`); the user supplies the order of `explicit_generic_rk`. -/
def ExplicitStepper.order : ExplicitStepper K → Option ℕ
  | .euler => some 1
  | .generic _ => none
  | .rk4 => some 4
  | .rk4Classic => some 4
  | .cashKarp => some 5
  | .cashKarpClassic => some 5
  | .fehlberg => some 8
  | .midpoint _ => some 2

/-- The steppers with error estimate derived from `explicit_error_stepper_base`, except
`extrapolation_stepper`. -/
inductive ErrorStepper (K : Type) where
  /-- `explicit_error_generic_rk` with a user-supplied tableau and weights `b2` of the error estimate
  (`OI/stepper/explicit_error_generic_rk.hpp`) -/
  | generic (T : Tableau K) (b2 : List K)
  | cashKarp
  | cashKarpClassic
  | fehlberg

/-- The stepper can be constructed. -/
def ErrorStepper.WellFormed : ErrorStepper K → Prop
  | .generic T _ => T.WellFormed
  | _ => True

/-- `error_order()`, the template argument of the base class (`OI/stepper/runge_kutta_cash_karp54.hpp:156`,
`runge_kutta_cash_karp54_classic.hpp:53-55`, `runge_kutta_fehlberg78.hpp:301`) -/
def ErrorStepper.errorOrder : ErrorStepper K → Option ℕ
  | .generic _ _ => none
  | .cashKarp => some 4
  | .cashKarpClassic => some 4
  | .fehlberg => some 7

section
variable [Add K] [Sub K] [Mul K] [Div K] [IntCast K] [StateOps K V]

/-- `do_step_impl` with error estimate (`OI/stepper/explicit_error_generic_rk.hpp:107-119`,
`OI/stepper/runge_kutta_cash_karp54_classic.hpp:82-107`) -/
def ErrorStepper.errImpl : ErrorStepper K → ErrStepImpl K V W
  | .generic T b2 => genericErrRkImpl T b2
  | .cashKarp => cashKarpErrImpl
  | .cashKarpClassic => cashKarpClassicErrImpl
  | .fehlberg => fehlbergErrImpl

/-- The same stepper, used without error estimate. -/
def ErrorStepper.toExplicit : ErrorStepper K → ExplicitStepper K
  | .generic T _ => .generic T
  | .cashKarp => .cashKarp
  | .cashKarpClassic => .cashKarpClassic
  | .fehlberg => .fehlberg

end
end Verif
