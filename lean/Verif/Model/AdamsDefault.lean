import Verif.Model.Multistep

/-! # The default initialising steppers of `adams_bashforth` and `adams_bashforth_moulton` -/

namespace Verif

/-- `order_helper< N >` (`OI/stepper/adams_bashforth.hpp:61-69`) -/
def orderHelper (N : ℕ) : ℕ := max (if N % 2 = 0 then N else N + 1) 4

/-- The default of the template parameter `InitializingStepper` of `adams_bashforth`: `extrapolation_stepper< order_helper< Steps >::value , ... >`
(`OI/stepper/adams_bashforth.hpp:80-82`), whose `m_k_max` is `(Order-2)/2` (`OI/stepper/extrapolation_stepper.hpp:116`). -/
def abDefaultInit (K : Type) (N : ℕ) : InitStepper K := .extrapolation ((orderHelper N - 2) / 2)

/-- The default of the template parameter `InitializingStepper` of `adams_bashforth_moulton`: `runge_kutta4< ... >`
(`OI/stepper/adams_bashforth_moulton.hpp:53`). -/
def abmDefaultInit (K : Type) : InitStepper K := .explicit .rk4

end Verif
