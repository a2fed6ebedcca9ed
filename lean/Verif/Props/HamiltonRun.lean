import Verif.Lemmas.RunMaps
import Verif.Lemmas.SplitRun

/-!
# C88: whole integrations of Hamiltonian systems are symplectic, preserve volume, and can be undone

`integrate_n_steps`, `integrate_const` and `integrate_adaptive` with the symplectic steppers and `velocity_verlet`.
-/

namespace Verif
open BSeries

section maps
variable {W : Type}

theorem splitStep_sympMap {V : Type} [NormedAddCommGroup V] [NormedSpace ℝ V] (coef : List (ℝ × ℝ)) (f g : V → V) (h : ℝ) :
    (fun z => splitStep (sepPart f g) (subSteps coef) h z) = sympMap coef f g h := by
  funext z
  rw [splitStep_subSteps, symplectic_composition]

theorem sympMap_bijective {V : Type} [AddCommGroup V] [Module ℝ V] (coef : List (ℝ × ℝ)) (f g : V → V) (h : ℝ) :
    Function.Bijective (sympMap coef f g h) :=
  ⟨(symplectic_bijective coef f g h).1.injective, (symplectic_bijective coef f g h).2.surjective⟩

theorem verletMap_bijective {V : Type} [AddCommGroup V] [Module ℝ V] (a : V → ℝ → V) (t h : ℝ) : Function.Bijective (verletMap a t h) := by
  have r : ∀ z, verletMap a t h (verletMap a (t + h) (-h) z) = z := by
    intro z
    have := verlet_reversible a (t + h) (-h) z
    rwa [neg_neg, add_neg_cancel_right] at this
  exact ⟨Function.LeftInverse.injective (verlet_reversible a t h), Function.RightInverse.surjective r⟩

end maps

/-! ## Symplectic -/

section form
variable {E W : Type} [NormedAddCommGroup E] [InnerProductSpace ℝ E] [CompleteSpace E]

/-- C88: for every separable Hamiltonian `T(p) + U(q)`, every symplectic stepper (every list of coefficients) and every call of `integrate_n_steps`,
`integrate_const` or `integrate_adaptive`, the returned state and all observed states are symplectic, invertible functions of the start state. -/
theorem integrate_symplectic {coor mom : E → M W E} {T U : E → ℝ} (hT : ContDiff ℝ 2 T) (hU : ContDiff ℝ 2 U) (hf : EvaluatesTo coor (gradient T))
    (hg : EvaluatesTo mom fun q => - gradient U q) {coef : List (ℝ × ℝ)} (hc : coef ≠ []) (c : FixedCall) (eps t0 dt : ℝ) (hdt : dt ≠ 0) :
    ∃ n τ Ψ, RunsBy c (pairStepperObject (K := ℝ) fun q p _ dt => rknDoStep coef coor mom q p dt) (fun _ => True) eps t0 dt n τ Ψ ∧
      ∀ k, IsSymplectic (Ψ k) ∧ Function.Bijective (Ψ k) := by
  obtain ⟨n, τ, h, H⟩ := runs_by c eps t0 dt hdt
  refine ⟨n, τ, _, H _ _ _ _ _ _ _ (symplectic_stepFn hf hg hc) fun _ _ _ _ => trivial, fun k => ⟨?_, ?_⟩⟩
  · refine orbitAlong_induction isSymplectic_id (fun _ _ h1 h2 => h1.comp h2) (fun t h => ?_) τ h k
    rw [splitStep_sympMap]
    exact symplectic_step coef T U hT hU h
  · refine orbitAlong_induction Function.bijective_id (fun _ _ h1 h2 => h1.comp h2) (fun t h => ?_) τ h k
    rw [splitStep_sympMap]
    exact sympMap_bijective _ _ _ _

/-- C88: the same for systems with `dq/dt = p`, passed to the stepper as one function. -/
theorem integrate_symplectic_momentum {mom : E → M W E} {U : E → ℝ} (hU : ContDiff ℝ 2 U) (hg : EvaluatesTo mom fun q => - gradient U q)
    {coef : List (ℝ × ℝ)} (hc : coef ≠ []) (c : FixedCall) (eps t0 dt : ℝ) (hdt : dt ≠ 0) :
    ∃ n τ Ψ, RunsBy c (pairStepperObject (K := ℝ) fun q p _ dt => rknDoStepMom coef mom q p dt) (fun _ => True) eps t0 dt n τ Ψ ∧
      ∀ k, IsSymplectic (Ψ k) ∧ Function.Bijective (Ψ k) := by
  obtain ⟨n, τ, h, H⟩ := runs_by c eps t0 dt hdt
  have eT : gradient (fun p : E => (1 / 2 : ℝ) * inner ℝ p p) = id := by
    funext p
    refine HasGradientAt.gradient ?_
    rw [hasGradientAt_iff_hasFDerivAt]
    have h1 := ((hasFDerivAt_id (𝕜 := ℝ) p).inner ℝ (hasFDerivAt_id p)).const_mul (1 / 2 : ℝ)
    refine h1.congr_fderiv ?_
    ext v
    simp [real_inner_comm]
    ring
  refine ⟨n, τ, _, H _ _ _ _ _ _ _ (symplectic_mom_stepFn hg hc) fun _ _ _ _ => trivial, fun k => ⟨?_, ?_⟩⟩
  · refine orbitAlong_induction isSymplectic_id (fun _ _ h1 h2 => h1.comp h2) (fun t h => ?_) τ h k
    rw [splitStep_sympMap, ← eT]
    exact symplectic_step coef _ U (contDiff_const.mul (contDiff_id.inner ℝ contDiff_id)) hU h
  · refine orbitAlong_induction Function.bijective_id (fun _ _ h1 h2 => h1.comp h2) (fun t h => ?_) τ h k
    rw [splitStep_sympMap]
    exact sympMap_bijective _ _ _ _

/-- C88: the same for `velocity_verlet` (`r`: whether the stepper had to resize its memory), also with potentials that depend on the time. -/
theorem integrate_verlet_symplectic {sys : Sys2 ℝ E W} {U : ℝ → E → ℝ} (hU : ∀ t, ContDiff ℝ 2 (U t))
    (hs : Accelerates sys fun q t => - gradient (U t) q) (r : Bool) (c : FixedCall) (eps t0 dt : ℝ) (hdt : dt ≠ 0) :
    ∃ n τ Ψ, RunsBy c (pairStepperObject (K := ℝ) fun q p t dt => verletDoStep r sys q p t dt) (fun q => q.flag mVerletFirst = true) eps t0 dt n τ Ψ ∧
      ∀ k, IsSymplectic (Ψ k) ∧ Function.Bijective (Ψ k) := by
  obtain ⟨n, τ, h, H⟩ := runs_by c eps t0 dt hdt
  refine ⟨n, τ, _, H _ _ _ _ _ _ (fun q => q.flag mVerletFirst = true) (verlet_stepFn hs r) fun q x t hq hf => (by rw [hq] at hf; cases hf), fun k => ⟨?_, ?_⟩⟩
  · exact orbitAlong_induction isSymplectic_id (fun _ _ h1 h2 => h1.comp h2) (fun t h => verlet_symplectic U hU t h) τ h k
  · exact orbitAlong_induction Function.bijective_id (fun _ _ h1 h2 => h1.comp h2) (fun t h => verletMap_bijective _ t h) τ h k

end form

/-! ## Volume -/

section volume
open MeasureTheory
variable {E W : Type} [NormedAddCommGroup E] [NormedSpace ℝ E] [MeasurableSpace E] [BorelSpace E]
  [SecondCountableTopology E] (μ : Measure E) [SFinite μ] [μ.IsAddLeftInvariant]

/-- C88: a set of start states and the set of the states that are returned for them have the same volume, for all (measurable) right hand sides,
Hamiltonian or not; the same for the observed states. -/
theorem integrate_volume {coor mom : E → M W E} {f g : E → E} (mf : Measurable f) (mg : Measurable g) (hf : EvaluatesTo coor f) (hg : EvaluatesTo mom g)
    {coef : List (ℝ × ℝ)} (hc : coef ≠ []) (c : FixedCall) (eps t0 dt : ℝ) (hdt : dt ≠ 0) :
    ∃ n τ Ψ, RunsBy c (pairStepperObject (K := ℝ) fun q p _ dt => rknDoStep coef coor mom q p dt) (fun _ => True) eps t0 dt n τ Ψ ∧
      ∀ k, MeasurePreserving (Ψ k) (μ.prod μ) (μ.prod μ) ∧ Function.Bijective (Ψ k) := by
  obtain ⟨n, τ, h, H⟩ := runs_by c eps t0 dt hdt
  refine ⟨n, τ, _, H _ _ _ _ _ _ _ (symplectic_stepFn hf hg hc) fun _ _ _ _ => trivial, fun k => ⟨?_, ?_⟩⟩
  · refine orbitAlong_induction (P := fun F => MeasurePreserving F (μ.prod μ) (μ.prod μ)) (MeasurePreserving.id _) (fun _ _ h1 h2 => h1.comp h2)
      (fun t h => ?_) τ h k
    rw [splitStep_sympMap]
    exact symplectic_volume μ coef f g mf mg h
  · refine orbitAlong_induction Function.bijective_id (fun _ _ h1 h2 => h1.comp h2) (fun t h => ?_) τ h k
    rw [splitStep_sympMap]
    exact sympMap_bijective _ _ _ _

/-- C88: the same for the steppers with `dq/dt = p`. -/
theorem integrate_volume_momentum {mom : E → M W E} {g : E → E} (mg : Measurable g) (hg : EvaluatesTo mom g)
    {coef : List (ℝ × ℝ)} (hc : coef ≠ []) (c : FixedCall) (eps t0 dt : ℝ) (hdt : dt ≠ 0) :
    ∃ n τ Ψ, RunsBy c (pairStepperObject (K := ℝ) fun q p _ dt => rknDoStepMom coef mom q p dt) (fun _ => True) eps t0 dt n τ Ψ ∧
      ∀ k, MeasurePreserving (Ψ k) (μ.prod μ) (μ.prod μ) ∧ Function.Bijective (Ψ k) := by
  obtain ⟨n, τ, h, H⟩ := runs_by c eps t0 dt hdt
  refine ⟨n, τ, _, H _ _ _ _ _ _ _ (symplectic_mom_stepFn hg hc) fun _ _ _ _ => trivial, fun k => ⟨?_, ?_⟩⟩
  · refine orbitAlong_induction (P := fun F => MeasurePreserving F (μ.prod μ) (μ.prod μ)) (MeasurePreserving.id _) (fun _ _ h1 h2 => h1.comp h2)
      (fun t h => ?_) τ h k
    rw [splitStep_sympMap]
    exact symplectic_volume μ coef id g measurable_id mg h
  · refine orbitAlong_induction Function.bijective_id (fun _ _ h1 h2 => h1.comp h2) (fun t h => ?_) τ h k
    rw [splitStep_sympMap]
    exact sympMap_bijective _ _ _ _

/-- C88: the same for `velocity_verlet`. -/
theorem integrate_verlet_volume {sys : Sys2 ℝ E W} {a : E → ℝ → E} (ma : ∀ t, Measurable fun q => a q t) (hs : Accelerates sys a) (r : Bool)
    (c : FixedCall) (eps t0 dt : ℝ) (hdt : dt ≠ 0) :
    ∃ n τ Ψ, RunsBy c (pairStepperObject (K := ℝ) fun q p t dt => verletDoStep r sys q p t dt) (fun q => q.flag mVerletFirst = true) eps t0 dt n τ Ψ ∧
      ∀ k, MeasurePreserving (Ψ k) (μ.prod μ) (μ.prod μ) ∧ Function.Bijective (Ψ k) := by
  obtain ⟨n, τ, h, H⟩ := runs_by c eps t0 dt hdt
  refine ⟨n, τ, _, H _ _ _ _ _ _ (fun q => q.flag mVerletFirst = true) (verlet_stepFn hs r) fun q x t hq hf => (by rw [hq] at hf; cases hf), fun k => ⟨?_, ?_⟩⟩
  · refine orbitAlong_induction (P := fun F => MeasurePreserving F (μ.prod μ) (μ.prod μ)) (MeasurePreserving.id _) (fun _ _ h1 h2 => h1.comp h2)
      (fun t h => ?_) τ h k
    have h1 := symplectic_volume μ [(0, 1 / 2)] id (fun q => a q t) measurable_id (ma t) h
    have h2 := symplectic_volume μ [(1, 1 / 2)] id (fun q => a q (t + h)) measurable_id (ma (t + h)) h
    refine (show (fun x => verletMap a t h x) = _ from ?_) ▸ h2.comp h1
    funext z
    rw [verlet_composition, Function.comp_apply, symplectic_composition, symplectic_composition]
    simp [kick, drift]
  · exact orbitAlong_induction Function.bijective_id (fun _ _ h1 h2 => h1.comp h2) (fun t h => verletMap_bijective _ t h) τ h k

end volume

/-! ## There and back -/

section reverse
variable {V W : Type} [NormedAddCommGroup V] [NormedSpace ℝ V]

/-- C88: an integration with one of the two symplectic steppers of fourth order, and then back over the same time, returns exactly to the start and
passes through the same states, for all right hand sides. -/
theorem integrate_sb3a_reverses {coor mom : V → M W V} {f g : V → V} (hf : EvaluatesTo coor f) (hg : EvaluatesTo mom g) (sqrt : ℝ → ℝ) :
    Reverses (pairStepperObject (K := ℝ) fun q p _ dt => rknDoStep sb3aCoef coor mom q p dt) (fun _ => True) ∧
    Reverses (pairStepperObject (K := ℝ) fun q p _ dt => rknDoStep (sb3aM4Coef sqrt) coor mom q p dt) (fun _ => True) := by
  constructor
  · refine reverses_of_stepFn (symplectic_stepFn hf hg (by simp [sb3aCoef, sb3aA, sb3aB])) (fun _ _ _ _ => trivial) fun x t h => ?_
    have e : ∀ h z, splitStep (sepPart f g) (subSteps sb3aCoef) h z = sympMap sb3aCoef f g h z := fun h => congrFun (splitStep_sympMap _ _ _ h)
    rw [e, e]
    exact (sb3a_reversible sqrt f g h x).1
  · refine reverses_of_stepFn (symplectic_stepFn hf hg (by simp [sb3aM4Coef, sb3aM4A, sb3aM4B])) (fun _ _ _ _ => trivial) fun x t h => ?_
    have e : ∀ h z, splitStep (sepPart f g) (subSteps (sb3aM4Coef sqrt)) h z = sympMap (sb3aM4Coef sqrt) f g h z := fun h => congrFun (splitStep_sympMap _ _ _ h)
    rw [e, e]
    exact (sb3a_reversible sqrt f g h x).2

/-- C88: the same with `dq/dt = p`. -/
theorem integrate_sb3a_momentum_reverses {mom : V → M W V} {g : V → V} (hg : EvaluatesTo mom g) (sqrt : ℝ → ℝ) :
    Reverses (pairStepperObject (K := ℝ) fun q p _ dt => rknDoStepMom sb3aCoef mom q p dt) (fun _ => True) ∧
    Reverses (pairStepperObject (K := ℝ) fun q p _ dt => rknDoStepMom (sb3aM4Coef sqrt) mom q p dt) (fun _ => True) := by
  constructor
  · refine reverses_of_stepFn (symplectic_mom_stepFn hg (by simp [sb3aCoef, sb3aA, sb3aB])) (fun _ _ _ _ => trivial) fun x t h => ?_
    have e : ∀ h z, splitStep (sepPart id g) (subSteps sb3aCoef) h z = sympMap sb3aCoef id g h z := fun h => congrFun (splitStep_sympMap _ _ _ h)
    rw [e, e]
    exact (sb3a_reversible sqrt id g h x).1
  · refine reverses_of_stepFn (symplectic_mom_stepFn hg (by simp [sb3aM4Coef, sb3aM4A, sb3aM4B])) (fun _ _ _ _ => trivial) fun x t h => ?_
    have e : ∀ h z, splitStep (sepPart id g) (subSteps (sb3aM4Coef sqrt)) h z = sympMap (sb3aM4Coef sqrt) id g h z := fun h => congrFun (splitStep_sympMap _ _ _ h)
    rw [e, e]
    exact (sb3a_reversible sqrt id g h x).2

/-- C88: the same for `velocity_verlet`, with accelerations that do not depend on the velocity. -/
theorem integrate_verlet_reverses {sys : Sys2 ℝ V W} {a : V → ℝ → V} (hs : Accelerates sys a) (r : Bool) :
    Reverses (pairStepperObject (K := ℝ) fun q p t dt => verletDoStep r sys q p t dt) (fun q => q.flag mVerletFirst = true) :=
  reverses_of_stepFn (verlet_stepFn hs r) (fun q x t hq hf => by rw [hq] at hf; cases hf) fun x t h => verlet_reversible a t h x

/-- `symplectic_euler` has no such property: one step of size 1 and one step of size -1 from `q = 0`, `p = 1` with `dq/dt = p`, `dp/dt = q`. -/
theorem integrate_symplectic_euler_not_reverses :
    ¬ Reverses (pairStepperObject (K := ℝ) (V := ℝ) (W := Unit) fun q p _ dt => rknDoStep symplecticEulerCoef pure pure q p dt) (fun _ => True) := by
  intro H
  have st := symplectic_stepFn (V := ℝ) (W := Unit) (coor := pure) (mom := pure) (f := id) (g := id) (fun x w => ⟨w, rfl⟩) (fun x w => ⟨w, rfl⟩)
    (coef := symplecticEulerCoef) (by simp [symplecticEulerCoef])
  let s : Heap ℝ ℝ Unit := ⟨fun _ => 0, fun _ => 0, fun _ => true, fun _ => 0, ()⟩
  obtain ⟨x, w₁, o, e, H⟩ := (H 0 0 1 (0, 1) s s () [] trivial trivial).1 1
  obtain ⟨w, e'⟩ := nSteps_run st 0 0 1 (0, 1) 1 s () [] trivial
  rw [e'] at e
  simp only [Res.ok.injEq, Prod.mk.injEq] at e
  obtain ⟨⟨ex, -⟩, -⟩ := e
  obtain ⟨w₃, e3⟩ := H () []
  obtain ⟨w, e4⟩ := nSteps_run st 0 (0 + (1 : ℕ) * 1) (-1) x 1 s () [] trivial
  rw [e4] at e3
  simp only [Res.ok.injEq, Prod.mk.injEq] at e3
  have := e3.1.1
  rw [← ex] at this
  simp [orbit, splitStep_subSteps, symplecticEulerCoef, lit, kick, drift] at this

end reverse

/-! ## Examples -/

/-- Non-vacuity: the oscillator with `T = |p|^2`, `U = |q|^2` in any dimension, with a right hand side that counts its calls. -/
example {E : Type} [NormedAddCommGroup E] [InnerProductSpace ℝ E] [CompleteSpace E] (c : FixedCall) :
    ∃ n τ Ψ, RunsBy c (pairStepperObject (K := ℝ) fun q p _ dt => rknDoStep sb3aCoef
        (fun p (w : ℕ) => .ok (gradient (fun p : E => inner ℝ p p) p) (w + 1)) (fun q w => .ok (-gradient (fun q : E => inner ℝ q q) q) (w + 1)) q p dt)
        (fun _ => True) 0 0 (1 / 10) n τ Ψ ∧ ∀ k, IsSymplectic (Ψ k) ∧ Function.Bijective (Ψ k) :=
  integrate_symplectic (contDiff_id.inner ℝ contDiff_id) (contDiff_id.inner ℝ contDiff_id) (fun _ w => ⟨w + 1, rfl⟩) (fun _ w => ⟨w + 1, rfl⟩)
    (by simp [sb3aCoef, sb3aA, sb3aB]) c 0 0 (1 / 10) (by norm_num)

/-- Non-vacuity: the pendulum, and a force that depends on the time. -/
example : Reverses (pairStepperObject (K := ℝ) fun q p t dt => verletDoStep true (fun q _ t (w : ℕ) => .ok (-Real.sin q + Real.cos t) (w + 1)) q p t dt)
    (fun q => q.flag mVerletFirst = true) :=
  integrate_verlet_reverses (a := fun q t => -Real.sin q + Real.cos t) (fun _ _ _ w => ⟨w + 1, rfl⟩) true

end Verif
