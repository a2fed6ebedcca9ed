import Verif.Spec.Variational
import Verif.Lemmas.RunMaps
import Verif.Props.Convergence
import Mathlib.Analysis.Calculus.FDeriv.Pi
import Mathlib.Analysis.SpecialFunctions.Trigonometric.Deriv

/-!
# C89: integrating the variational equations gives the derivative of the numerical solution

This is how Lyapunov exponents and sensitivities are computed: the system is integrated together with its linearisation.
-/

namespace Verif
open Finset BSeries

variable {V W W' ι : Type} [NormedAddCommGroup V] [NormedSpace ℝ V] [Fintype ι]

/-- `Φ` and `Φ'` are given by the same Runge-Kutta formula for a system and for the system with perturbations: `Φ'` is the derivative of `Φ` -/
theorem rk_tangent {f : V → ℝ → V} (hf : ∀ t, Differentiable ℝ fun x => f x t) {n : ℕ} {A : ℕ → ℕ → ℝ} {c b : ℕ → ℝ}
    {k : V → ℝ → ℝ → ℕ → V} {Φ : V → ℝ → ℝ → V} {k' : V × (ι → V) → ℝ → ℝ → ℕ → V × (ι → V)} {Φ' : V × (ι → V) → ℝ → ℝ → V × (ι → V)}
    (hk : ∀ x t h i, i < n → k x t h i = f (x + h • ∑ j ∈ range i, A i j • k x t h j) (t + c i * h))
    (hΦ : ∀ x t h, Φ x t h = x + h • ∑ i ∈ range n, b i • k x t h i)
    (hk' : ∀ x t h i, i < n → k' x t h i = withPerturbations f (x + h • ∑ j ∈ range i, A i j • k' x t h j) (t + c i * h))
    (hΦ' : ∀ x t h, Φ' x t h = x + h • ∑ i ∈ range n, b i • k' x t h i) (t h : ℝ) :
    Differentiable ℝ (fun x => Φ x t h) ∧ ∀ x v, Φ' (x, v) t h = (Φ x t h, fun m => fderiv ℝ (fun x => Φ x t h) x (v m)) := by
  -- a combination of the stages
  have comb : ∀ (m : ℕ) (a : ℕ → ℝ), (∀ j < m, Differentiable ℝ (fun x => k x t h j) ∧
      ∀ x v, k' (x, v) t h j = (k x t h j, fun m => fderiv ℝ (fun x => k x t h j) x (v m))) →
      Differentiable ℝ (fun x => x + h • ∑ j ∈ range m, a j • k x t h j) ∧ ∀ x v, (x, v) + h • ∑ j ∈ range m, a j • k' (x, v) t h j =
        (x + h • ∑ j ∈ range m, a j • k x t h j, fun i => fderiv ℝ (fun x => x + h • ∑ j ∈ range m, a j • k x t h j) x (v i)) := by
    intro m a H
    have hd : ∀ x, HasFDerivAt (fun x => x + h • ∑ j ∈ range m, a j • k x t h j)
        (ContinuousLinearMap.id ℝ V + h • ∑ j ∈ range m, a j • fderiv ℝ (fun x => k x t h j) x) x := by
      intro x
      refine (hasFDerivAt_id x).add (HasFDerivAt.const_smul (HasFDerivAt.fun_sum fun j hj => ?_) h)
      exact ((H j (mem_range.1 hj)).1 x).hasFDerivAt.const_smul (a j)
    refine ⟨fun x => (hd x).differentiableAt, fun x v => ?_⟩
    rw [(hd x).fderiv, sum_congr rfl fun j hj => by rw [(H j (mem_range.1 hj)).2 x v]]
    refine Prod.ext ?_ (funext fun i => ?_)
    · simp [Prod.fst_sum]
    · simp [Prod.snd_sum, Finset.sum_apply]
  have stages : ∀ i < n, Differentiable ℝ (fun x => k x t h i) ∧
      ∀ x v, k' (x, v) t h i = (k x t h i, fun m => fderiv ℝ (fun x => k x t h i) x (v m)) := by
    intro i
    induction i using Nat.strong_induction_on with
    | _ i ih =>
      intro hi
      obtain ⟨d, e⟩ := comb i (A i) fun j hj => ih j hj (by omega)
      have hc : (fun x => k x t h i) = fun x => f (x + h • ∑ j ∈ range i, A i j • k x t h j) (t + c i * h) := funext fun x => hk x t h i hi
      refine ⟨?_, fun x v => ?_⟩
      · rw [hc]
        exact (hf (t + c i * h)).comp d
      · rw [hc, hk' _ _ _ i hi, e x v, hk x t h i hi]
        have := fderiv_comp x (hf (t + c i * h) (x + h • ∑ j ∈ range i, A i j • k x t h j)) (d x)
        simp only [Function.comp_def] at this
        simp only [withPerturbations, this, ContinuousLinearMap.comp_apply]
  obtain ⟨d, e⟩ := comb n b stages
  have hc : (fun x => Φ x t h) = fun x => x + h • ∑ j ∈ range n, b j • k x t h j := funext fun x => hΦ x t h
  refine ⟨hc ▸ d, fun x v => ?_⟩
  rw [hΦ', hc, e x v, hΦ]

/-- the same for whole orbits -/
theorem orbit_tangent {Φ : V → ℝ → ℝ → V} {Φ' : V × (ι → V) → ℝ → ℝ → V × (ι → V)} (H : ∀ t h, Differentiable ℝ (fun x => Φ x t h) ∧
      ∀ x v, Φ' (x, v) t h = (Φ x t h, fun m => fderiv ℝ (fun x => Φ x t h) x (v m))) (τ h : ℕ → ℝ) (k : ℕ) :
    Differentiable ℝ (orbitAlong Φ τ h k) ∧ ∀ x v, orbitAlong Φ' τ h k (x, v) =
      (orbitAlong Φ τ h k x, fun m => fderiv ℝ (orbitAlong Φ τ h k) x (v m)) := by
  induction k with
  | zero => exact ⟨differentiable_id, fun x v => by simp [orbitAlong]⟩
  | succ k ih =>
    obtain ⟨d, e⟩ := H (τ k) (h k)
    refine ⟨d.comp ih.1, fun x v => ?_⟩
    have hc := fderiv_comp x (d (orbitAlong Φ τ h k x)) (ih.1 x)
    simp only [Function.comp_def] at hc
    simp only [orbitAlong, ih.2 x v, e, hc, ContinuousLinearMap.comp_apply]

/-- Every explicit stepper computes a Runge-Kutta formula that does not depend on the system or the space. -/
theorem recipe_formula (s : ExplicitStepper ℝ) (hw : s.WellFormed) : ∃ (n : ℕ) (A : ℕ → ℕ → ℝ) (c b : ℕ → ℝ), ∀ (V W : Type) [NormedAddCommGroup V]
    [NormedSpace ℝ V] (sys : Sys ℝ V W) (f : V → ℝ → V), Evaluates sys f → ∃ (k : V → ℝ → ℝ → ℕ → V) (Φ : V → ℝ → ℝ → V),
      (∀ x t h w, ∃ w', s.recipe sys x (f x t) t h w = .ok (Φ x t h) w') ∧
      (∀ x t h i, i < n → k x t h i = f (x + h • ∑ j ∈ range i, A i j • k x t h j) (t + c i * h)) ∧
      ∀ x t h, Φ x t h = x + h • ∑ i ∈ range n, b i • k x t h i := by
  have key : ∀ T : Tableau ℝ, T.WellFormed → ∃ (n : ℕ) (A : ℕ → ℕ → ℝ) (c b : ℕ → ℝ), ∀ (V W : Type) [NormedAddCommGroup V]
    [NormedSpace ℝ V] (sys : Sys ℝ V W) (f : V → ℝ → V), Evaluates sys f → ∃ (k : V → ℝ → ℝ → ℕ → V) (Φ : V → ℝ → ℝ → V),
      (∀ x t h w, ∃ w', rkStep T sys x (f x t) t h w = .ok (Φ x t h) w') ∧
      (∀ x t h i, i < n → k x t h i = f (x + h • ∑ j ∈ range i, A i j • k x t h j) (t + c i * h)) ∧
      ∀ x t h, Φ x t h = x + h • ∑ i ∈ range n, b i • k x t h i := fun T hT =>
    ⟨T.size, T.aij, T.ci, T.bi, fun V W _ _ sys f hs => ⟨fun x t h => T.stageFn f x t h, fun x t h => T.result x h (T.stageFn f x t h),
      fun x t h w => rkStep_value hs T hT x t h w, fun x t h i hi => T.stageFn_isStages f x t h i hi, fun _ _ _ => rfl⟩⟩
  cases s with
  | euler =>
    refine ⟨1, fun _ _ => 0, fun _ => 0, fun _ => 1, fun V W _ _ sys f hs => ⟨fun x t h _ => f x t, fun x t h => x + h • f x t, fun x t h w => ⟨w, ?_⟩,
      fun x t h i hi => ?_, fun x t h => ?_⟩⟩
    · simp only [ExplicitStepper.recipe, eulerStep, M.pure_apply, lin_exact]
      simp [lit]
    · simp
    · simp
  | generic T => exact key T hw
  | rk4 => exact key _ rk4Tableau_wf
  | rk4Classic =>
    simp only [ExplicitStepper.recipe, ← rk4_recipe_eq]
    exact key _ rk4Tableau_wf
  | cashKarp => exact key _ cashKarpTableau_wf
  | cashKarpClassic =>
    simp only [ExplicitStepper.recipe, ← cashKarp_recipe_eq]
    exact key _ cashKarpTableau_wf
  | fehlberg => exact key _ fehlbergTableau_wf
  | midpoint m =>
    exact ⟨m + 1, fun i j => alpha i j / m, fun i => (i : ℝ) / m, graggB m, fun V W _ _ sys f hs => ⟨fun x t h i => graggStage f x t (h / m) i,
      fun x t h => graggValue f m x t h, fun x t h w => midpointStep_value hs m hw.1 x t h w,
        fun x t h i _ => graggStage_rk f m hw.1 x t h i, fun x t h => graggValue_rk f m hw.1 x t h⟩⟩

/-- C89: for every explicit stepper (Euler, the Runge-Kutta steppers, also with tables of the user, and the modified midpoint method) and every right hand
side that is differentiable with respect to the state, integrating the system together with its variational equations gives exactly the derivative of the
numerical solution of the system with respect to the start state.  Both right hand sides may have side effects. -/
theorem integrate_variational [CompleteSpace V] (s : ExplicitStepper ℝ) (hw : s.WellFormed) {f : V → ℝ → V} (hf : ∀ t, Differentiable ℝ fun x => f x t) {sys : Sys ℝ V W}
    (hs : Evaluates sys f) {sys' : Sys ℝ (V × (ι → V)) W'} (hs' : Evaluates sys' (withPerturbations f)) :
    TangentOf (stepperObject (K := ℝ) fun l t dt => doStep1 s.impl sys' l t dt) (fun _ => True)
      (stepperObject (K := ℝ) fun l t dt => doStep1 s.impl sys l t dt) (fun _ => True) := by
  intro c eps t0 dt hdt
  obtain ⟨n, τ, h, H⟩ := runs_by c eps t0 dt hdt
  obtain ⟨m, A, d, b, F⟩ := recipe_formula s hw
  obtain ⟨k, Φ, r, hk, hΦ⟩ := F V W sys f hs
  obtain ⟨k', Φ', r', hk', hΦ'⟩ := F (V × (ι → V)) W' sys' (withPerturbations f) hs'
  exact ⟨n, τ, _, _, H _ _ _ _ _ _ _ (explicit_stepFn s hw hs r) fun _ _ _ _ => trivial,
    H _ _ _ _ _ _ _ (explicit_stepFn s hw hs' r') fun _ _ _ _ => trivial,
    fun k => orbit_tangent (rk_tangent hf hk hΦ hk' hΦ') τ h k⟩

/-- C89: the same for `runge_kutta_dopri5`. -/
theorem integrate_variational_dopri5 [CompleteSpace V] (r : Bool) {f : V → ℝ → V} (hf : ∀ t, Differentiable ℝ fun x => f x t) {sys : Sys ℝ V W}
    (hs : Evaluates sys f) {sys' : Sys ℝ (V × (ι → V)) W'} (hs' : Evaluates sys' (withPerturbations f)) :
    TangentOf (stepperObject (K := ℝ) fun l t dt => fsalStep1 dopri5Impl r sys' l t dt) (fun q => q.flag mFirstCall = true)
      (stepperObject (K := ℝ) fun l t dt => fsalStep1 dopri5Impl r sys l t dt) (fun q => q.flag mFirstCall = true) := by
  intro c eps t0 dt hdt
  obtain ⟨n, τ, h, H⟩ := runs_by c eps t0 dt hdt
  refine ⟨n, τ, _, _, H _ _ _ _ _ _ _ (dopri5_stepFn hs r) fun q x t hq => .inl hq, H _ _ _ _ _ _ _ (dopri5_stepFn hs' r) fun q x t hq => .inl hq,
    fun k => orbit_tangent (rk_tangent hf (n := (dopri5Tableau : Tableau ℝ).size) (A := (dopri5Tableau : Tableau ℝ).aij) (c := (dopri5Tableau : Tableau ℝ).ci) (b := (dopri5Tableau : Tableau ℝ).bi)
      (k := fun x t h => (dopri5Tableau : Tableau ℝ).stageFn f x t h) (k' := fun x t h => (dopri5Tableau : Tableau ℝ).stageFn (withPerturbations f) x t h) ?_ ?_ ?_ ?_) τ h k⟩
  · exact fun x t h i hi => (dopri5Tableau : Tableau ℝ).stageFn_isStages f x t h i hi
  · exact fun x t h => by rw [dopri5Fun_stages]; rfl
  · exact fun x t h i hi => (dopri5Tableau : Tableau ℝ).stageFn_isStages (withPerturbations f) x t h i hi
  · exact fun x t h => by rw [dopri5Fun_stages]; rfl

/-- Non-vacuity: a nonlinear system with two perturbations, and a right hand side that counts its calls. -/
example : TangentOf (ι := Fin 2) (stepperObject (K := ℝ) fun l t dt => doStep1 (ExplicitStepper.rk4 (K := ℝ)).impl
      (fun z t (w : ℕ) => .ok (withPerturbations (fun x t => Real.sin x + t * x ^ 2) z t) (w + 1)) l t dt) (fun _ => True)
    (stepperObject (K := ℝ) fun l t dt => doStep1 (ExplicitStepper.rk4 (K := ℝ)).impl (fun x t (w : ℕ) => .ok (Real.sin x + t * x ^ 2) (w + 1)) l t dt)
    (fun _ => True) :=
  integrate_variational .rk4 trivial (f := fun x t => Real.sin x + t * x ^ 2) (fun t => Real.differentiable_sin.add ((differentiable_id.pow 2).const_mul t))
    (fun _ _ w => ⟨w + 1, rfl⟩) (fun _ _ w => ⟨w + 1, rfl⟩)

end Verif
