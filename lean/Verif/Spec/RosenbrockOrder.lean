import Mathlib.Analysis.Normed.Group.Basic
import Mathlib.Analysis.Normed.Module.Basic
import Mathlib.Algebra.BigOperators.Group.Finset.Basic

/-!
# Small up to the rounding of coefficients

The coefficients of some methods are tabulated as decimal numbers, so that the conditions for the order of the method hold only up to
about `10^-15`.
-/

namespace Verif
open Finset
variable {V : Type} [NormedAddCommGroup V]

/-- `‖err h‖ ≤ δ (m|h| + (m|h|)² + ... + (m|h|)^p) + O(|h|^(p+1))` for step sizes `h ≠ 0` near zero: of order `p` if `δ` were zero. -/
def SmallUpTo (δ m : ℝ) (p : ℕ) (err : ℝ → V) : Prop :=
  ∃ C η : ℝ, 0 < η ∧ ∀ h : ℝ, h ≠ 0 → |h| < η → ‖err h‖ ≤ δ * (∑ k ∈ range p, (m * |h|) ^ (k + 1)) + C * |h| ^ (p + 1)

/-- the same, uniformly for all points `θ` of the step -/
def SmallOnStep (δ m : ℝ) (p : ℕ) (err : ℝ → ℝ → V) : Prop :=
  ∃ C η : ℝ, 0 < η ∧ ∀ h : ℝ, h ≠ 0 → |h| < η → ∀ θ : ℝ, 0 ≤ θ → θ ≤ 1 →
    ‖err h θ‖ ≤ δ * (∑ k ∈ range p, (m * |h|) ^ (k + 1)) + C * |h| ^ (p + 1)

end Verif
