import Verif.Model.Heap
import Verif.Model.TimeArith
import Verif.Model.Steppers
import Mathlib.Data.Real.Basic

/-!
# Arithmetic with rounding

The steppers are templates over the number type; `double`, `float` or fixed point numbers are arithmetics in which the result of every operation is
rounded.
-/

namespace Verif

/-- A number format: the result of every operation is rounded by `rnd`; `u` is its unit roundoff. -/
structure Rounding where
  rnd : ℝ → ℝ
  u : ℝ

/-- The results of operations are correct up to the error `u * ( 1 + |y| )`, as long as they are not larger than `B / u` (no overflow), and `u` is at
most `1 / B`.  For IEEE 754 `double` and rounding to nearest `u = 2^-53`; the summand `1` leaves room for underflow and for fixed point numbers. -/
structure Rounding.Accurate (ρ : Rounding) (B : ℝ) : Prop where
  nonneg : 0 ≤ ρ.u
  small : ρ.u * B ≤ 1
  close : ∀ y, ρ.u * |y| ≤ B → |ρ.rnd y - y| ≤ ρ.u * (1 + |y|)

/-- The numbers of the format; simplification: numbers that are not representable are allowed as inputs, which are not rounded. -/
def Fl (_ : Rounding) : Type := ℝ

variable {ρ : Rounding}

/-- the real value of a number -/
def Fl.val (a : Fl ρ) : ℝ := a

/-- the number with a given real value -/
def Fl.of (a : ℝ) : Fl ρ := a

/-- `a + b` for built-in floating point types: the exact sum, rounded (likewise for the other operations).  These are the operations on components
in `OI/algebra/default_operations.hpp:59-404` and on times and step sizes in the steppers. -/
instance : Add (Fl ρ) := ⟨fun a b => .of (ρ.rnd (a.val + b.val))⟩
instance : Sub (Fl ρ) := ⟨fun a b => .of (ρ.rnd (a.val - b.val))⟩
noncomputable instance : Mul (Fl ρ) := ⟨fun a b => .of (ρ.rnd (a.val * b.val))⟩
noncomputable instance : Div (Fl ρ) := ⟨fun a b => .of (ρ.rnd (a.val / b.val))⟩
/-- `-a` is exact -/
instance : Neg (Fl ρ) := ⟨fun a => .of (-a.val)⟩
/-- `static_cast< Value >( n )` -/
instance : IntCast (Fl ρ) := ⟨fun n => .of (ρ.rnd n)⟩

/-- States with finitely many components of the number type, as `boost::array< double , N >` or `std::vector< double >` with the default operations
(`OI/algebra/range_algebra.hpp`, `OI/algebra/default_operations.hpp:59-404`) -/
noncomputable instance {ι : Type} : StateOps (Fl ρ) (ι → Fl ρ) := StateOps.componentwise

/-- Times are computed with rounding and compared exactly (see `TimeArith`). -/
noncomputable def TimeArith.rounded (ρ : Rounding) (eps : Fl ρ) : TimeArith (Fl ρ) where
  add := (· + ·)
  sub := (· - ·)
  nmul n dt := lit n * dt
  lt a b := decide (a.val < b.val)
  le a b := decide (a.val ≤ b.val)
  zero := .of 0
  eps := eps

/-- The steppers whose coefficients are part of the library, for any number type (see `ExplicitStepper`). -/
inductive FixedStepper where
  | euler | rk4 | rk4Classic | cashKarp | cashKarpClassic | fehlberg | midpoint (m : ℕ)

/-- the stepper for the number type `K` -/
def FixedStepper.stepper (K : Type) : FixedStepper → ExplicitStepper K
  | .euler => .euler
  | .rk4 => .rk4
  | .rk4Classic => .rk4Classic
  | .cashKarp => .cashKarp
  | .cashKarpClassic => .cashKarpClassic
  | .fehlberg => .fehlberg
  | .midpoint m => .midpoint m

end Verif
