import Verif.Props.Commute
import Verif.Props.ExtrapolationOrder
import Verif.Props.MultistepRun
import Mathlib.Algebra.Polynomial.AlgebraMap
import Mathlib.Algebra.Polynomial.Degree.Lemmas

/-!
# C47: linear problems and linear invariants

* `rk_stability_polynomial`, `dopri5_stability_polynomial`: for `x' = A x` a step multiplies the state by a fixed polynomial in `dt A`
  whose coefficients up to `order()` are those of the exponential function; `rk4_stability_polynomial` gives the polynomial of
  `runge_kutta4`.
* `linear_invariant_step`, `linear_invariant_dopri5`, `linear_invariant_adams`, `linear_invariant_adams_moulton`,
  `linear_invariant_adams_initialize`, `linear_invariant_adams_moulton_initialize`: a linear functional that the right-hand side annihilates
  has the same value before and after any number of steps.
-/

set_option linter.unusedSectionVars false

namespace Verif
open Finset Polynomial BSeries

/-! ## The stability polynomial -/

section
variable {V : Type} [AddCommGroup V] [Module ℝ V]

/-- the polynomial of stage `i`: `p_i(z) = 1 + z sum_{j<i} a_ij p_j(z)` -/
noncomputable def stagePoly (A : ℕ → ℕ → ℝ) : ℕ → ℝ[X]
  | i => 1 + X * ∑ j : Fin i, C (A i j) * stagePoly A j
termination_by i => i
decreasing_by exact j.2

theorem stagePoly_eq (A : ℕ → ℕ → ℝ) (i : ℕ) : stagePoly A i = 1 + X * ∑ j ∈ range i, C (A i j) * stagePoly A j := by
  rw [stagePoly, Finset.sum_range]

/-- the stability polynomial `R(z) = 1 + z sum_i b_i p_i(z)` -/
noncomputable def stabPoly (A : ℕ → ℕ → ℝ) (b : ℕ → ℝ) (n : ℕ) : ℝ[X] := 1 + X * ∑ i ∈ range n, C (b i) * stagePoly A i

theorem natDegree_one_add_X_mul {p : ℝ[X]} {n : ℕ} (hp : p.natDegree + 1 ≤ n) :
    (1 + X * p).natDegree ≤ n := by
  refine (natDegree_add_le _ _).trans (max_le (by simp) ?_)
  refine (natDegree_mul_le).trans ?_
  simp only [natDegree_X]
  omega

theorem stagePoly_degree (A : ℕ → ℕ → ℝ) (i : ℕ) : (stagePoly A i).natDegree ≤ i := by
  induction i using Nat.strong_induction_on with
  | _ i ih =>
    rw [stagePoly_eq]
    rcases Nat.eq_zero_or_pos i with rfl | hi
    · simp
    · refine natDegree_one_add_X_mul ?_
      have : (∑ j ∈ range i, C (A i j) * stagePoly A j).natDegree ≤ i - 1 :=
        natDegree_sum_le_of_forall_le _ _ fun j hj => (natDegree_C_mul_le _ _).trans ((ih j (mem_range.1 hj)).trans (by
          have := mem_range.1 hj; omega))
      omega

theorem stabPoly_degree (A : ℕ → ℕ → ℝ) (b : ℕ → ℝ) (n : ℕ) : (stabPoly A b n).natDegree ≤ n := by
  unfold stabPoly
  rcases Nat.eq_zero_or_pos n with rfl | hi
  · simp
  · refine natDegree_one_add_X_mul ?_
    have : (∑ j ∈ range n, C (b j) * stagePoly A j).natDegree ≤ n - 1 :=
      natDegree_sum_le_of_forall_le _ _ fun j hj => (natDegree_C_mul_le _ _).trans ((stagePoly_degree A j).trans (by
        have := mem_range.1 hj; omega))
    omega

/-- the tree without ramifications -/
def tallTree : ℕ → PTree Unit
  | 0 => .leaf ()
  | n + 1 => .graft (tallTree n) (.leaf ())

theorem tallTree_size : ∀ n, (tallTree n).size = n + 1
  | 0 => rfl
  | n + 1 => by rw [tallTree, PTree.size, tallTree_size n]; rfl

theorem tallTree_exact : ∀ n, (exactWeight (tallTree n) : ℝ) = 1 / (n.factorial : ℝ)
  | 0 => by simp [tallTree, exactWeight]
  | n + 1 => by
    rw [tallTree, exactWeight, tallTree_exact n, tallTree_size, exactWeight, Nat.factorial_succ, mul_one, div_div]
    push_cast
    rw [mul_comm]

theorem stagePoly_coeff (A : ℕ → ℕ → ℝ) : ∀ n i, (stagePoly A i).coeff n = stageWeight A (fun _ => ()) (tallTree n) i
  | 0, i => by rw [stagePoly_eq]; simp [tallTree, stageWeight]
  | n + 1, i => by
    rw [stagePoly_eq, coeff_add, coeff_X_mul, finset_sum_coeff, tallTree, stageWeight]
    simp only [coeff_C_mul, stagePoly_coeff A n, coeff_one, stageWeight]
    simp

/-- the order conditions of the trees without ramifications give the coefficients of the exponential function -/
theorem stabPoly_coeff {A : ℕ → ℕ → ℝ} {b : ℕ → ℝ} {n p : ℕ} (h : OrderConditions A b n p) : ∀ j ≤ p,
    (stabPoly A b n).coeff j = 1 / (j.factorial : ℝ) := by
  intro j hj
  unfold stabPoly
  cases j with
  | zero => simp
  | succ j =>
    have := h (tallTree j) (by rw [tallTree_size]; exact hj)
    rw [tallTree_exact, tallTree_size] at this
    rw [coeff_add, coeff_X_mul, finset_sum_coeff]
    simp only [coeff_C_mul, stagePoly_coeff, this, coeff_one]
    rw [if_neg (by omega), zero_add, Nat.factorial_succ, div_div, mul_comm]
    push_cast
    rfl

theorem stages_linear (A : ℕ → ℕ → ℝ) (L : V →ₗ[ℝ] V) (x : V) (dt : ℝ) (n : ℕ) (k : ℕ → V)
    (hk : ∀ i < n, k i = L (x + dt • ∑ j ∈ range i, A i j • k j)) : ∀ i < n, k i = L (aeval (dt • L) (stagePoly A i) x) := by
  intro i
  induction i using Nat.strong_induction_on with
  | _ i ih =>
    intro hi
    rw [hk i hi, stagePoly_eq]
    congr 1
    rw [map_add, map_one, LinearMap.add_apply, map_mul, aeval_X, Module.End.mul_apply, map_sum, LinearMap.sum_apply, Module.End.one_apply]
    congr 1
    rw [LinearMap.smul_apply, map_sum]
    congr 1
    refine Finset.sum_congr rfl fun j hj => ?_
    have hj := mem_range.1 hj
    rw [ih j hj (by omega), map_mul, aeval_C, Module.End.mul_apply, Module.algebraMap_end_apply, map_smul]

theorem result_linear (A : ℕ → ℕ → ℝ) (b : ℕ → ℝ) (L : V →ₗ[ℝ] V) (x : V) (dt : ℝ) (n : ℕ) (k : ℕ → V)
    (hk : ∀ i < n, k i = L (x + dt • ∑ j ∈ range i, A i j • k j)) :
    x + dt • ∑ i ∈ range n, b i • k i = aeval (dt • L) (stabPoly A b n) x := by
  rw [stabPoly, map_add, map_one, LinearMap.add_apply, map_mul, aeval_X, Module.End.mul_apply, map_sum, LinearMap.sum_apply,
    Module.End.one_apply, LinearMap.smul_apply, map_sum]
  congr 2
  refine Finset.sum_congr rfl fun j hj => ?_
  rw [stages_linear A L x dt n k hk j (mem_range.1 hj), map_mul, aeval_C, Module.End.mul_apply, Module.algebraMap_end_apply, map_smul]

theorem tableau_linear (T : Tableau ℝ) (L : V →ₗ[ℝ] V) (x : V) (t dt : ℝ) :
    T.result x dt (T.stageFn (fun y _ => L y) x t dt) = aeval (dt • L) (stabPoly T.aij T.bi T.size) x :=
  result_linear T.aij T.bi L x dt T.size _ fun i hi => T.stageFn_isStages (fun y _ => L y) x t dt i hi

end

/-- the number of evaluations of the right-hand side in a step -/
def ExplicitStepper.stages : ExplicitStepper ℝ → ℕ
  | .euler => 1
  | .generic T => T.size
  | .rk4 => 4
  | .rk4Classic => 4
  | .cashKarp => 6
  | .cashKarpClassic => 6
  | .fehlberg => 13
  | .midpoint m => m + 1

/-- `run dt` multiplies the state by `R(dt L)`, for every linear system -/
def MultipliesBy (R : ℝ[X]) (pre : ∀ {V W : Type} [AddCommGroup V] [Module ℝ V], Heap ℝ V W → (V → ℝ → V) → ℕ → ℝ → Prop)
    (run : ∀ {V W : Type} [AddCommGroup V] [Module ℝ V], Sys ℝ V W → ℕ → ℝ → ℕ → ℝ → StepM ℝ V W Unit) : Prop :=
  ∀ (V W : Type) [AddCommGroup V] [Module ℝ V] (L : V →ₗ[ℝ] V) (sys : Sys ℝ V W), Evaluates sys (fun x _ => L x) →
    ∀ (x out : ℕ) (t dt : ℝ) (h : Heap ℝ V W), pre h (fun x _ => L x) x t →
      ∃ h', run sys x t out dt h = .ok () h' ∧ h'.state (.user out) = aeval (dt • L) R (h.state (.user x))

theorem recipe_stability (s : ExplicitStepper ℝ) (hw : s.WellFormed) : ∃ R : ℝ[X], R.natDegree ≤ s.stages ∧
    (∀ p, s.order = some p → ∀ j ≤ p, R.coeff j = 1 / (j.factorial : ℝ)) ∧
    ∀ (V W : Type) [AddCommGroup V] [Module ℝ V] (L : V →ₗ[ℝ] V) (sys : Sys ℝ V W), Evaluates sys (fun x _ => L x) →
      ∀ (x : V) (t dt : ℝ) (w : W), ∃ w', s.recipe sys x (L x) t dt w = .ok (aeval (dt • L) R x) w' := by
  have key : ∀ (T : Tableau ℝ) (n : ℕ) (o : Option ℕ), T.WellFormed → T.size = n →
      (∀ p, o = some p → OrderConditions T.aij T.bi T.size p) → ∃ R : ℝ[X], R.natDegree ≤ n ∧
      (∀ p, o = some p → ∀ j ≤ p, R.coeff j = 1 / (j.factorial : ℝ)) ∧
      ∀ (V W : Type) [AddCommGroup V] [Module ℝ V] (L : V →ₗ[ℝ] V) (sys : Sys ℝ V W), Evaluates sys (fun x _ => L x) →
        ∀ (x : V) (t dt : ℝ) (w : W), ∃ w', rkStep T sys x (L x) t dt w = .ok (aeval (dt • L) R x) w' := by
    rintro T n o hT rfl ho
    refine ⟨stabPoly T.aij T.bi T.size, stabPoly_degree _ _ _, fun p hp => stabPoly_coeff (ho p hp), ?_⟩
    intro V W _ _ L sys hs x t dt w
    obtain ⟨w', e⟩ := rkStep_value hs T hT x t dt w
    exact ⟨w', by rw [← tableau_linear T L x t dt]; exact e⟩
  cases s with
  | euler =>
    refine ⟨1 + X, ?_, ?_, ?_⟩
    · refine (natDegree_add_le _ _).trans ?_
      simp [ExplicitStepper.stages]
    · rintro p hp j hj
      obtain rfl : 1 = p := Option.some.inj hp
      interval_cases j <;> simp [coeff_one, coeff_X]
    · intro V W _ _ L sys hs x t dt w
      refine ⟨w, ?_⟩
      simp only [ExplicitStepper.recipe, eulerStep, M.pure_apply, lin_exact]
      simp [lit]
  | generic T => exact key T _ none hw rfl fun p hp => by cases hp
  | rk4 => exact key _ 4 (some 4) rk4Tableau_wf rfl fun p hp => by cases hp; exact rk4_conditions
  | rk4Classic =>
    simp only [ExplicitStepper.recipe, ← rk4_recipe_eq]
    exact key _ 4 (some 4) rk4Tableau_wf rfl fun p hp => by cases hp; exact rk4_conditions
  | cashKarp => exact key _ 6 (some 5) cashKarpTableau_wf rfl fun p hp => by cases hp; exact cashKarp_conditions
  | cashKarpClassic =>
    simp only [ExplicitStepper.recipe, ← cashKarp_recipe_eq]
    exact key _ 6 (some 5) cashKarpTableau_wf rfl fun p hp => by cases hp; exact cashKarp_conditions
  | fehlberg => exact key _ 13 (some 8) fehlbergTableau_wf rfl fun p hp => by cases hp; exact fehlberg_conditions
  | midpoint m =>
    refine ⟨stabPoly (fun i j => alpha i j / m) (graggB m) (m + 1), stabPoly_degree _ _ _, fun p hp => ?_, ?_⟩
    · obtain rfl : 2 = p := Option.some.inj hp
      exact stabPoly_coeff (gragg_conditions m hw.1)
    · intro V W _ _ L sys hs x t dt w
      obtain ⟨w', e⟩ := midpointStep_value hs m hw.1 x t dt w
      refine ⟨w', e.trans ?_⟩
      rw [graggValue_rk _ m hw.1, result_linear (fun i j => alpha i j / m) (graggB m) L x dt (m + 1) _ fun i _ => graggStage_rk _ m hw.1 x t dt i]

/-- **C47.**  For every explicit Runge-Kutta stepper there is one polynomial `R`, of degree at most the number of stages and with the
coefficients `1/j!` up to `order()`, such that for every linear system `x' = L x`, in any dimension, `do_step` replaces the state by
`R(dt L) x`. -/
theorem rk_stability_polynomial (s : ExplicitStepper ℝ) (hw : s.WellFormed) : ∃ R : ℝ[X], R.natDegree ≤ s.stages ∧
    (∀ p, s.order = some p → ∀ j ≤ p, R.coeff j = 1 / (j.factorial : ℝ)) ∧
    MultipliesBy R (fun _ _ _ _ => True) fun sys x t out dt => doStep3 s.impl sys (.user x) t (.user out) dt := by
  obtain ⟨R, h1, h2, h3⟩ := recipe_stability s hw
  refine ⟨R, h1, h2, ?_⟩
  intro V W _ _ L sys hs x out t dt h _
  obtain ⟨w1, e1⟩ := hs.bind (h.state (.user x)) t h.world fun k => s.recipe sys (h.state (.user x)) k t dt
  obtain ⟨w2, e2⟩ := h3 V W L sys hs (h.state (.user x)) t dt w1
  obtain ⟨h', r1, r2⟩ := (doStep3_implements s hw sys (.user x) (.user out) t dt h (ownedBy_user _ _)).total (e1.trans e2)
  exact ⟨h', r1, by rw [r2 _ (ownedBy_user _ _)]; simp [Heap.setAll]⟩

/-- **C47.**  A step of `runge_kutta4` multiplies by `1 + z + z²/2 + z³/6 + z⁴/24`. -/
theorem rk4_stability_polynomial : MultipliesBy (1 + X + C (1 / 2) * X ^ 2 + C (1 / 6) * X ^ 3 + C (1 / 24) * X ^ 4) (fun _ _ _ _ => True)
    fun sys x t out dt => doStep3 (ExplicitStepper.rk4 (K := ℝ)).impl sys (.user x) t (.user out) dt := by
  obtain ⟨R, h1, h2, h3⟩ := rk_stability_polynomial .rk4 trivial
  have : R = 1 + X + C (1 / 2) * X ^ 2 + C (1 / 6) * X ^ 3 + C (1 / 24) * X ^ 4 := by
    ext j
    simp only [coeff_add, coeff_C_mul, coeff_X_pow, coeff_one, coeff_X]
    rcases Nat.lt_or_ge 4 j with hj | hj
    · rw [coeff_eq_zero_of_natDegree_lt (h1.trans_lt hj)]
      rw [if_neg (by omega), if_neg (by omega), if_neg (by omega), if_neg (by omega), if_neg (by omega)]
      simp
    · rw [h2 4 rfl j hj]
      interval_cases j <;> norm_num [Nat.factorial]
  rw [← this]
  exact h3

/-- **C47** for `runge_kutta_dopri5`, if the cached derivative is up to date. -/
theorem dopri5_stability_polynomial : ∃ R : ℝ[X], R.natDegree ≤ 7 ∧ (∀ j ≤ 5, R.coeff j = 1 / (j.factorial : ℝ)) ∧
    ∀ resized, MultipliesBy R (fun h f x t => h.flag mFirstCall = true ∨ h.state mDxdt = f (h.state (.user x)) t)
      fun sys x t out dt => fsalStep3 dopri5Impl resized sys (.user x) t (.user out) dt := by
  refine ⟨stabPoly dopri5Tableau.aij dopri5Tableau.bi (dopri5Tableau : Tableau ℝ).size, stabPoly_degree _ _ _, stabPoly_coeff dopri5_conditions, ?_⟩
  intro resized V W _ _ L sys hs x out t dt h hr
  have e1 : ∃ w1, fsalDeriv (resized || h.flag mFirstCall) (h.state mDxdt) sys (h.state (.user x)) t h.world =
      .ok (L (h.state (.user x))) w1 := by
    unfold fsalDeriv
    rcases hr with h1 | h1
    · rw [h1, Bool.or_true, if_pos rfl]
      exact hs _ t _
    · split
      · exact hs _ t _
      · exact ⟨_, by rw [h1]; rfl⟩
  obtain ⟨w1, e1⟩ := e1
  obtain ⟨w2, e2⟩ := dopri5Step_value hs (h.state (.user x)) (L (h.state (.user x))) t dt w1
  obtain ⟨h', r1, r2⟩ := (dopri5Step3_implements resized sys (.user x) (.user out) t dt h (ownedBy_user _ _) (ownedBy_user _ _)).total
    ((M.bind_ok e1 _).trans (M.bind_ok e2 _))
  refine ⟨h', r1, ?_⟩
  rw [r2 _ (ownedBy_user _ _), ← tableau_linear dopri5Tableau L _ t dt]
  simp [Heap.setAll, dopri5Fun_stages (fun x _ => L x)]

/-- The harmonic oscillator, with a right-hand side that counts its calls. -/
example : Evaluates (countSys fun (x : ℝ × ℝ) (_ : ℝ) => (x.2, -x.1)) (fun x _ =>
    ((LinearMap.snd ℝ ℝ ℝ).prod (-LinearMap.fst ℝ ℝ ℝ)) x) := fun _ _ n => ⟨n + 1, rfl⟩

/-! ## Linear invariants -/

theorem zero_evaluates : Evaluates (pureSys fun _ _ => 0 : Sys ℝ ℝ Unit) fun _ _ => 0 := fun _ _ w => ⟨w, rfl⟩

theorem zero_stageFn (T : Tableau ℝ) (x t dt : ℝ) (i : ℕ) : T.stageFn (fun (_ : ℝ) _ => (0 : ℝ)) x t dt i = 0 := by
  rw [Tableau.stageFn]

theorem zero_recipe (s : InitStepper ℝ) (hw : s.WellFormed) (c t dt : ℝ) :
    s.recipe (pureSys fun _ _ => 0 : Sys ℝ ℝ Unit) c 0 t dt () = .ok c () := by
  have key : ∀ T : Tableau ℝ, T.WellFormed → rkStep T (pureSys fun _ _ => 0 : Sys ℝ ℝ Unit) c 0 t dt () = .ok c () := by
    intro T hT
    obtain ⟨w', e⟩ := rkStep_value zero_evaluates T hT c t dt ()
    rw [e]
    congr 1
    simp [Tableau.result, zero_stageFn]
  have mid : ∀ m, 1 ≤ m → graggValue (fun (_ : ℝ) (_ : ℝ) => (0 : ℝ)) m c t dt = c := by
    intro m hm
    rw [graggValue_time (fun _ => (0 : ℝ)) m hm]
    simp
  cases s with
  | explicit s =>
    cases s with
    | euler => simp [InitStepper.recipe, ExplicitStepper.recipe, eulerStep, M.pure_apply, lin_exact, lit]
    | generic T => exact key T hw
    | rk4 => exact key _ rk4Tableau_wf
    | rk4Classic =>
      simp only [InitStepper.recipe, ExplicitStepper.recipe, ← rk4_recipe_eq]
      exact key _ rk4Tableau_wf
    | cashKarp => exact key _ cashKarpTableau_wf
    | cashKarpClassic =>
      simp only [InitStepper.recipe, ExplicitStepper.recipe, ← cashKarp_recipe_eq]
      exact key _ cashKarpTableau_wf
    | fehlberg => exact key _ fehlbergTableau_wf
    | midpoint m =>
      obtain ⟨w', e⟩ := midpointStep_value zero_evaluates m hw.1 c t dt ()
      exact e.trans (by rw [mid m hw.1])
  | extrapolation kmax =>
    obtain ⟨ys, w', e1, e2⟩ := extrapolationResults_value zero_evaluates kmax c t dt ()
    refine (M.bind_ok e1 _).trans ?_
    rw [M.pure_apply, neville_congr _ _ (fun _ => c) kmax kmax fun i hi => by rw [e2 i hi, mid _ (by unfold interval; omega)],
      neville_exCoeff _ _ _ le_rfl]
    have := neville_poly (fun i => 1 / (interval i : ℝ) ^ 2) (C c) kmax kmax le_rfl (by simp) (interval_inj _)
    simp only [eval_C] at this
    rw [this]

section
variable {V W : Type} [AddCommGroup V] [Module ℝ V]

/-- the values of the functional -/
def Heap.values (l : V →ₗ[ℝ] ℝ) (h : Heap ℝ V W) : Heap ℝ ℝ Unit := ⟨fun a => l (h.state a), h.num, h.flag, h.nat, ()⟩

/-- every derivative the system function returns is annihilated by `l` -/
def Annihilates (l : V →ₗ[ℝ] ℝ) (sys : Sys ℝ V W) : Prop := ∀ x t w v w', sys x t w = .ok v w' → l v = 0

theorem Annihilates.rel {l : V →ₗ[ℝ] ℝ} {sys : Sys ℝ V W} (h : Annihilates l sys) :
    SysRel True (fun x y => l x = y) (fun _ _ => True) sys (pureSys fun _ _ => 0 : Sys ℝ ℝ Unit) := by
  intro x y t w w' _ _
  cases hf : sys x t w with
  | ok v w₁ => exact ⟨0, w', rfl, h x t w v w₁ hf, trivial⟩
  | err e w₁ => exact .inl trivial
  | ub => exact .inl trivial
  | div => exact .inl trivial

theorem functional_closed (l : V →ₗ[ℝ] ℝ) : LinClosed ℝ (fun x y => l x = y) := (linear_linHom l).closed

theorem value_of_run {l : V →ₗ[ℝ] ℝ} {α : Type} {p : StepM ℝ V W α} {q : StepM ℝ ℝ Unit α}
    (hr : RunRel True (fun x y => l x = y) (fun _ _ => True) p q) {h h' : Heap ℝ V W} {a b : α} {k : Heap ℝ ℝ Unit} (hp : p h = .ok a h')
    (hq : q (h.values l) = .ok b k) (loc : Loc) : l (h'.state loc) = k.state loc := by
  have := hr h (h.values l) ⟨fun _ => rfl, rfl, rfl, rfl, trivial⟩
  rw [hp, hq] at this
  obtain ⟨_, k', e, -, r⟩ := this
  rw [← (Res.ok.inj e).2] at r
  exact r.state loc

/-- **C47.**  If the right-hand side stays in the kernel of a linear functional `l` (which may be any linear invariant of an arbitrary,
nonlinear and time-dependent system), then a step of any explicit stepper, including the extrapolation stepper, does not change the value
of `l`. -/
theorem linear_invariant_step (s : InitStepper ℝ) (hw : s.WellFormed) (l : V →ₗ[ℝ] ℝ) (sys : Sys ℝ V W) (hl : Annihilates l sys)
    (x out : ℕ) (hne : s.inPlace = true ∨ x ≠ out) (t dt : ℝ) (h h' : Heap ℝ V W)
    (hr : doStep3 s.impl sys (.user x) t (.user out) dt h = .ok () h') : l (h'.state (.user out)) = l (h.state (.user x)) := by
  have R := stepCall_rel (functional_closed l) hl.rel (.step3 s x t out dt)
  have Z : ∃ k, doStep3 s.impl (pureSys fun _ _ => 0 : Sys ℝ ℝ Unit) (.user x) t (.user out) dt (h.values l) = .ok () k ∧
      k.state (.user out) = l (h.state (.user x)) := by
    have e := zero_recipe s hw (l (h.state (.user x))) t dt
    cases s with
    | explicit s =>
      obtain ⟨k, r1, r2⟩ := (doStep3_implements s hw (pureSys fun _ _ => 0 : Sys ℝ ℝ Unit) (.user x) (.user out) t dt (h.values l)
        (ownedBy_user _ _)).total (w' := ()) (M.bind_ok (show (pureSys fun _ _ => 0 : Sys ℝ ℝ Unit) _ t () = .ok 0 () from rfl) _ |>.trans e)
      exact ⟨k, r1, by rw [r2 _ (ownedBy_user _ _)]; simp [Heap.setAll]⟩
    | extrapolation kmax =>
      obtain ⟨k, r1, r2⟩ := (extrapolation_outofplace_partial kmax hw (pureSys fun _ _ => 0 : Sys ℝ ℝ Unit) x out (hne.resolve_left (by simp [InitStepper.inPlace])) t dt
        (h.values l)).total (w' := ()) (M.bind_ok (show (pureSys fun _ _ => 0 : Sys ℝ ℝ Unit) _ t () = .ok 0 () from rfl) _ |>.trans e)
      exact ⟨k, r1, by rw [r2 _ (ownedBy_user _ _)]; simp [Heap.setAll]⟩
  obtain ⟨k, z1, z2⟩ := Z
  rw [value_of_run R hr z1 (.user out), z2]

theorem RunRel.repeatStep {U X : Type} {lax : Prop} {S : V → U → Prop} {T : W → X → Prop} {p : ℕ → StepM ℝ V W Unit} {q : ℕ → StepM ℝ U X Unit} (h : ∀ i, RunRel lax S T (p i) (q i)) :
    ∀ n, RunRel lax S T (repeatStep p n) (repeatStep q n)
  | 0 => RunRel.pure ()
  | n + 1 => (RunRel.repeatStep h n).bind fun _ => h n

theorem zero_formula (coef : List ℝ) (c dt : ℝ) : ∀ (ks : List ℝ), (∀ k ∈ ks, k = 0) → abFormula coef c dt ks = c := by
  intro ks hk
  rw [abFormula, lin_exact, List.map_cons, List.sum_cons]
  have : ∀ (cs ks : List ℝ), (∀ k ∈ ks, k = 0) → ((cs.zip ks).map fun p => p.1 • p.2).sum = 0 := by
    intro cs ks hk
    apply List.sum_eq_zero
    intro y hy
    obtain ⟨p, hp, rfl⟩ := List.mem_map.1 hy
    rw [hk p.2 (List.of_mem_zip hp).2, smul_zero]
  rw [this _ _ hk]
  simp [lit]

theorem zero_ab (N : ℕ) (coef : List ℝ) (init : InitStepper ℝ) (hw : init.WellFormed) (T : ℕ → ℝ) (dt c : ℝ) :
    AbSolution N coef init (fun (_ : ℝ) _ => (0 : ℝ)) (fun _ => c) T dt where
  start := fun i _ => zero_recipe init hw c _ dt
  step := fun i _ => (zero_formula _ _ _ _ fun k hk => by simp [lastDerivs] at hk; exact hk.2).symm

theorem zero_abm (N : ℕ) (cb cm : List ℝ) (init : InitStepper ℝ) (hw : init.WellFormed) (T : ℕ → ℝ) (dt c : ℝ) :
    AbmSolution N cb cm init (fun (_ : ℝ) _ => (0 : ℝ)) (fun _ => c) T dt where
  start := fun i _ => zero_recipe init hw c _ dt
  step := fun i _ => (zero_formula _ _ _ _ fun k hk => by
    simp [lastDerivs] at hk
    rcases hk with hk | hk
    · exact hk
    · exact hk.2).symm

/-- **C47** for a new (or reset) `adams_bashforth< N >`: any number of steps, at any times. -/
theorem linear_invariant_adams (N : ℕ) (init : InitStepper ℝ) (hw : init.WellFormed) (hip : init.inPlace = true) (l : V →ₗ[ℝ] ℝ)
    (sys : Sys ℝ V W) (hl : Annihilates l sys) (x : ℕ) (T : ℕ → ℝ) (dt : ℝ) (n : ℕ) (h h' : Heap ℝ V W) (hf : h.nat mFirst < N)
    (hc : h.nat mStepsInit = 0)
    (hr : repeatStep (fun i => abStep N (abCoef N) init sys false (.user x) (T i) (.user x) dt) n h = .ok () h') :
    l (h'.state (.user x)) = l (h.state (.user x)) := by
  obtain ⟨k, z1, z2, -⟩ := adams_bashforth_run N (abCoef N) init hw hip _ _ T dt (zero_ab N _ init hw T dt (l (h.state (.user x)))) (h.values l) hf hc x
    rfl n
  have R := RunRel.repeatStep (fun i => stepCall_rel (functional_closed l) hl.rel (.adams N init false x (T i) x dt)) n
  rw [value_of_run R hr z1 (.user x), z2]

theorem amCoef_length_le (N : ℕ) : (amCoef (K := ℝ) N).length ≤ N := by
  unfold amCoef
  split <;> simp

theorem abInitialize_rel {U X : Type} [AddCommGroup U] [Module ℝ U] {lax : Prop} {S : V → U → Prop} {T : W → X → Prop} {f : Sys ℝ V W}
    {g : Sys ℝ U X} (hS : LinClosed ℝ S) (hs : SysRel lax S T f g) (N : ℕ) (s : InitStepper ℝ) (x : Loc) (t dt : ℝ) :
    RunRel lax S T (abInitialize N s f x t dt) (abInitialize N s g x t dt) :=
  (abInitLoop_rel hS hs N s x dt (N - 1) 0 t).bind fun t => (RunRel.setNat _ _).bind fun _ => RunRel.pure t

/-- **C47** for a new (or reset) `adams_bashforth_moulton< N >`. -/
theorem linear_invariant_adams_moulton (N : ℕ) (init : InitStepper ℝ) (hw : init.WellFormed) (hip : init.inPlace = true) (l : V →ₗ[ℝ] ℝ)
    (sys : Sys ℝ V W) (hl : Annihilates l sys) (x : ℕ) (T : ℕ → ℝ) (dt : ℝ) (n : ℕ) (h h' : Heap ℝ V W) (hf : h.nat mFirst < N)
    (hc : h.nat mStepsInit = 0)
    (hr : repeatStep (fun i => abmStep N (abCoef N) (amCoef N) init sys false (.user x) (T i) (.user x) dt) n h = .ok () h') :
    l (h'.state (.user x)) = l (h.state (.user x)) := by
  obtain ⟨k, z1, z2, -⟩ := adams_bashforth_moulton_run N (abCoef N) (amCoef N) (amCoef_length_le N) init hw hip _ _ T dt (zero_abm N _ _ init hw T dt (l (h.state (.user x)))) (h.values l) hf hc x
    rfl n
  have R := RunRel.repeatStep (fun i => stepCall_rel (functional_closed l) hl.rel (.adamsMoulton N init false x (T i) x dt)) n
  rw [value_of_run R hr z1 (.user x), z2]

/-- **C47**: `initialize` with any stepper, in any state of the `adams_bashforth< N >` object, followed by any number of steps. -/
theorem linear_invariant_adams_initialize (N : ℕ) (init s : InitStepper ℝ) (hw : init.WellFormed) (hs : s.WellFormed) (l : V →ₗ[ℝ] ℝ)
    (sys : Sys ℝ V W) (hl : Annihilates l sys) (x : ℕ) (t dt t' : ℝ) (n : ℕ) (h h' : Heap ℝ V W) (hf : h.nat mFirst < N)
    (hr : (do
      let t' ← abInitialize N s sys (.user x) t dt
      repeatStep (fun i => abStep N (abCoef N) init sys false (.user x) (t + ((N - 1 + i : ℕ) : ℝ) * dt) (.user x) dt) n
      pure t') h = .ok t' h') :
    l (h'.state (.user x)) = l (h.state (.user x)) := by
  obtain ⟨k, z1, z2, -⟩ := adams_bashforth_initialize_run N (abCoef N) init s hw hs _ _ (fun i => t + (i : ℝ) * dt) dt
    (fun i => by push_cast; ring) (zero_ab N _ s hs _ dt (l (h.state (.user x)))) (h.values l) hf x rfl n
  simp only [Nat.cast_zero, zero_mul, add_zero] at z1
  have R := (abInitialize_rel (functional_closed l) hl.rel N s (.user x) t dt).bind fun t' =>
    (RunRel.repeatStep (fun i => stepCall_rel (functional_closed l) hl.rel (.adams N init false x (t + ((N - 1 + i : ℕ) : ℝ) * dt) x dt)) n).bind
      fun _ => RunRel.pure t'
  rw [value_of_run R hr z1 (.user x), z2]

/-- **C47**: the same for `adams_bashforth_moulton< N >`. -/
theorem linear_invariant_adams_moulton_initialize (N : ℕ) (init s : InitStepper ℝ) (hw : init.WellFormed) (hs : s.WellFormed)
    (l : V →ₗ[ℝ] ℝ) (sys : Sys ℝ V W) (hl : Annihilates l sys) (x : ℕ) (t dt t' : ℝ) (n : ℕ) (h h' : Heap ℝ V W) (hf : h.nat mFirst < N)
    (hr : (do
      let t' ← abInitialize N s sys (.user x) t dt
      repeatStep (fun i => abmStep N (abCoef N) (amCoef N) init sys false (.user x) (t + ((N - 1 + i : ℕ) : ℝ) * dt) (.user x) dt) n
      pure t') h = .ok t' h') :
    l (h'.state (.user x)) = l (h.state (.user x)) := by
  obtain ⟨k, z1, z2, -⟩ := adams_bashforth_moulton_initialize_run N (abCoef N) (amCoef N) (amCoef_length_le N) init s hw hs _ _
    (fun i => t + (i : ℝ) * dt) dt
    (fun i => by push_cast; ring) (zero_abm N _ _ s hs _ dt (l (h.state (.user x)))) (h.values l) hf x rfl n
  simp only [Nat.cast_zero, zero_mul, add_zero] at z1
  have R := (abInitialize_rel (functional_closed l) hl.rel N s (.user x) t dt).bind fun t' =>
    (RunRel.repeatStep (fun i => stepCall_rel (functional_closed l) hl.rel
      (.adamsMoulton N init false x (t + ((N - 1 + i : ℕ) : ℝ) * dt) x dt)) n).bind fun _ => RunRel.pure t'
  rw [value_of_run R hr z1 (.user x), z2]

/-- a step of `runge_kutta_dopri5` for the zero system -/
theorem zero_dopri5 (resized : Bool) (x : ℕ) (t dt : ℝ) (h : Heap ℝ ℝ Unit) (hd : h.flag mFirstCall = true ∨ h.state mDxdt = 0) :
    ∃ h', fsalStep1 dopri5Impl resized (pureSys fun _ _ => 0 : Sys ℝ ℝ Unit) (.user x) t dt h = .ok () h' ∧
      h'.state (.user x) = h.state (.user x) ∧ h'.state mDxdt = 0 := by
  have step : ∀ h₁ : Heap ℝ ℝ Unit, h₁.state mDxdt = 0 → h₁.state (.user x) = h.state (.user x) →
      ∃ h', dopri5Impl (pureSys fun _ _ => 0 : Sys ℝ ℝ Unit) (.user x) mDxdt t (.user x) mDxdt dt h₁ = .ok () h' ∧
        h'.state (.user x) = h.state (.user x) ∧ h'.state mDxdt = 0 := by
    intro h₁ h1 h2
    obtain ⟨w2, e2⟩ := dopri5Step_value zero_evaluates (h₁.state (.user x)) 0 t dt h₁.world
    have H := dopri5_implements (pureSys fun _ _ => 0 : Sys ℝ ℝ Unit) (.user x) mDxdt (.user x) mDxdt t dt h₁ (ownedBy_user _ _)
      (by simp [mDxdt, Loc.ownedBy]) (ownedBy_user _ _) (by simp [mDxdt, Loc.ownedBy]) (by simp [mDxdt])
    rw [h1] at H
    obtain ⟨h', r1, r2⟩ := H.total e2
    have e : dopri5Fun (fun (_ : ℝ) (_ : ℝ) => (0 : ℝ)) (h₁.state (.user x)) 0 t dt =
        ⟨0, 0, 0, 0, h₁.state (.user x), 0⟩ := by
      simp [dopri5Fun, lin_exact, lit]
    rw [e] at r2
    refine ⟨h', r1, ?_, ?_⟩
    · rw [r2 _ (ownedBy_user _ _)]
      simp [Heap.set_state_apply, mDxdt, h2]
    · rw [r2 _ (by simp [mDxdt, Loc.ownedBy])]
      simp [Heap.set_state_apply, mDxdt]
  unfold fsalStep1 fsalPrepare
  simp only [bind_assoc]
  rw [M.bind_ok (show getFlag mFirstCall h = .ok (h.flag mFirstCall) h from rfl)]
  cases hb : resized || h.flag mFirstCall with
  | true =>
    simp only [if_true]
    exact step ((h.put mDxdt 0 ()).putFlag mFirstCall false) (by simp) (by simp [Heap.put_state_apply, mDxdt])
  | false =>
    simp only [Bool.false_eq_true, if_false]
    refine step h (hd.resolve_left fun hf => ?_) rfl
    rw [hf, Bool.or_true] at hb
    cases hb

/-- **C47** for `runge_kutta_dopri5`: any number of steps of a new (or reset) stepper, at any times, whichever of them resize. -/
theorem linear_invariant_dopri5 (l : V →ₗ[ℝ] ℝ) (sys : Sys ℝ V W) (hl : Annihilates l sys) (x : ℕ) (resized : ℕ → Bool) (T dt : ℕ → ℝ)
    (n : ℕ) (h h' : Heap ℝ V W) (hf : h.flag mFirstCall = true)
    (hr : repeatStep (fun i => fsalStep1 dopri5Impl (resized i) sys (.user x) (T i) (dt i)) n h = .ok () h') :
    l (h'.state (.user x)) = l (h.state (.user x)) := by
  have Z : ∀ n, ∃ k, repeatStep (fun i => fsalStep1 dopri5Impl (resized i) (pureSys fun _ _ => 0 : Sys ℝ ℝ Unit) (.user x) (T i) (dt i)) n
      (h.values l) = .ok () k ∧ k.state (.user x) = l (h.state (.user x)) ∧ (k.flag mFirstCall = true ∨ k.state mDxdt = 0) := by
    intro n
    induction n with
    | zero => exact ⟨_, rfl, rfl, .inl hf⟩
    | succ n ih =>
      obtain ⟨k, e1, e2, e3⟩ := ih
      obtain ⟨k', f1, f2, f3⟩ := zero_dopri5 (resized n) x (T n) (dt n) k e3
      exact ⟨k', (M.bind_ok e1 _).trans f1, f2.trans e2, .inr f3⟩
  obtain ⟨k, z1, z2, -⟩ := Z n
  have R := RunRel.repeatStep (fun i => stepCall_rel (functional_closed l) hl.rel (.dopri1 (resized i) x (T i) (dt i))) n
  rw [value_of_run R hr z1 (.user x), z2]

end

/-- A reaction `A -> B` with a nonlinear rate conserves the total mass. -/
example : Annihilates (LinearMap.fst ℝ ℝ ℝ + LinearMap.snd ℝ ℝ ℝ) (countSys fun (x : ℝ × ℝ) (t : ℝ) => (-(x.1 * x.2 * t), x.1 * x.2 * t)) := by
  intro x t w v w' h
  obtain ⟨rfl, -⟩ := Res.ok.inj h
  simp

end Verif
