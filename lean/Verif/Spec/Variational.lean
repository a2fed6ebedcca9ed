import Verif.Spec.RunMaps
import Mathlib.Analysis.Calculus.FDeriv.Basic

/-! # The variational equations -/

namespace Verif
variable {V : Type} [NormedAddCommGroup V] [NormedSpace ℝ V] {ι : Type}

/-- The system `x' = f( x , t )` together with its linearisation for a number of perturbations `v i`: `v i' = ∂f/∂x( x , t ) ( v i )`. -/
noncomputable def withPerturbations (f : V → ℝ → V) : V × (ι → V) → ℝ → V × (ι → V) :=
  fun z t => (f z.1 t, fun i => fderiv ℝ (fun y => f y t) z.1 (z.2 i))

/-- The same call of an integrate function, with one stepper for the system and one for the system with perturbations, in all start states: the same
number of steps at the same times, the states of the system agree, and all observed perturbations are exactly the directional derivatives of the observed
states with respect to the start state. -/
def TangentOf [Fintype ι] {W W' Q Q' : Type} (st' : BasicStepper Q' (W' × Log (V × (ι → V)) ℝ) (V × (ι → V)) ℝ) (fresh' : Q' → Prop)
    (st : BasicStepper Q (W × Log V ℝ) V ℝ) (fresh : Q → Prop) : Prop :=
  ∀ (c : FixedCall) (eps t0 dt : ℝ), dt ≠ 0 → ∃ n τ Ψ Ψ', RunsBy c st fresh eps t0 dt n τ Ψ ∧ RunsBy c st' fresh' eps t0 dt n τ Ψ' ∧
    ∀ k, Differentiable ℝ (Ψ k) ∧ ∀ x v, Ψ' k (x, v) = (Ψ k x, fun i => fderiv ℝ (Ψ k) x (v i))

end Verif
