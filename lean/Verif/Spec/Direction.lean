import Mathlib.Algebra.Order.Field.Basic

/-! # Direction of integration (exact arithmetic) -/

namespace Verif
variable {K : Type} [Field K] [LinearOrder K]

/-- `a` lies beyond `b`, by more than `eps`, in the direction of integration given by the sign of
`dt` (forward for `dt > 0`, backward otherwise). -/
def Beyond (eps dt a b : K) : Prop := if 0 < dt then b + eps < a else a < b - eps

/-- Two step sizes point in the same direction and neither is zero. -/
def SameDir (a b : K) : Prop := (0 < a ∧ 0 < b) ∨ (a < 0 ∧ b < 0)

instance (eps dt a b : K) : Decidable (Beyond eps dt a b) := by unfold Beyond; infer_instance

end Verif
