import Verif.Model.ControlledRk
import Mathlib.Analysis.SpecialFunctions.Pow.Real

/-! # The real numbers as value type of the step-size controllers -/

namespace Verif

/-- Exact real arithmetic; `eps` is the tolerance of the time comparisons. -/
noncomputable def realOps (eps : ℝ) : NumOps ℝ where
  lt a b := decide (a < b)
  le a b := decide (a ≤ b)
  eq a b := decide (a = b)
  abs a := |a|
  pow a b := a ^ b
  eps := eps

end Verif
