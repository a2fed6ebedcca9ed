import Mathlib.Algebra.Order.Field.Basic

/-!
# Time arithmetic and direction-aware comparisons

Models `util/detail/less_with_sign.hpp`.
-/

namespace Verif

/-- The operations the library uses on its `Time` type.  No law is assumed: `double`, `float`,
multiprecision and interval types all give instances.
* `nmul n dt` is `static_cast< unit_value_type<Time>::type >( n ) * dt`
  (e.g. `integrate/detail/integrate_const.hpp:63`),
* `eps` is `std::numeric_limits<T>::epsilon()`,
* `zero` is the literal `0` time values are compared with. -/
structure TimeArith (T : Type) where
  add : T → T → T
  sub : T → T → T
  nmul : ℕ → T → T
  lt : T → T → Bool
  le : T → T → Bool
  zero : T
  eps : T

namespace TimeArith
variable {T : Type} (A : TimeArith T)

/-- `less_with_sign`, `util/detail/less_with_sign.hpp:32-41`. -/
def lessWithSign (t1 t2 dt : T) : Bool :=
  if A.lt A.zero dt then A.lt A.eps (A.sub t2 t1) else A.lt A.eps (A.sub t1 t2)

/-- `less_eq_with_sign`, `util/detail/less_with_sign.hpp:46-53`. -/
def lessEqWithSign (t1 t2 dt : T) : Bool :=
  if A.lt A.zero dt then A.le (A.sub t1 t2) A.eps else A.le (A.sub t2 t1) A.eps

/-- `std::min( a , b )`: returns `b` iff `b < a`. -/
def stdMin (a b : T) : T := if A.lt b a then b else a

/-- `std::max( a , b )`: returns `b` iff `a < b`. -/
def stdMax (a b : T) : T := if A.lt a b then b else a

/-- `min_abs`, `util/detail/less_with_sign.hpp:55-64`. -/
def minAbs (t1 t2 : T) : T := if A.lt A.zero t1 then A.stdMin t1 t2 else A.stdMax t1 t2

/-- `max_abs`, `util/detail/less_with_sign.hpp:66-75`. -/
def maxAbs (t1 t2 : T) : T := if A.lt A.zero t1 then A.stdMax t1 t2 else A.stdMin t1 t2

end TimeArith

/-- Exact arithmetic in a linearly ordered field with tolerance `eps`. -/
def TimeArith.exact (K : Type) [Field K] [LinearOrder K] (eps : K) : TimeArith K where
  add := (· + ·)
  sub := (· - ·)
  nmul n dt := (n : K) * dt
  lt a b := decide (a < b)
  le a b := decide (a ≤ b)
  zero := 0
  eps := eps

end Verif
