import Verif.Props.GenericRk
import Verif.Props.Extrapolation
import Verif.Lemmas.StageValues
import Verif.Lemmas.OrderTables
import Verif.Lemmas.Fsal
import Verif.Lemmas.GraggWeights
import Mathlib.Tactic.Module
import Mathlib.Analysis.Calculus.Deriv.Inv
import Mathlib.Analysis.Calculus.ContDiff.Operations
import Verif.Spec.Fsal

/-!
# C31, C32: the order of the Runge-Kutta steppers and of their error estimates

`Spec/Order.lean` defines solutions of an initial value problem and the order of a step; `V` is any complete normed space (in
particular `ℝ^n` for any `n`), arithmetic is exact.
-/

set_option linter.unusedSectionVars false

namespace Verif
open Topology Asymptotics Finset BSeries
variable {V W : Type} [NormedAddCommGroup V] [NormedSpace ℝ V] [CompleteSpace V]

theorem Implements.total {K V W : Type} [Field K] [AddCommGroup V] [Module K V] {os : List Owner} {h : Heap K V W} {p : StepM K V W Unit}
    {α : Type} {spec : M W α} {outs : α → List (Loc × V)} {exc : List Loc} (H : Implements os h p spec outs exc) {v : α} {w' : W}
    (hs : spec h.world = .ok v w') :
    ∃ h', p h = .ok () h' ∧ ∀ l, ¬ l.ownedBy os → h'.state l = (h.setAll (outs v)).state l := by
  unfold Implements at H
  rw [hs] at H
  obtain ⟨h', h1, -, h3⟩ := H
  exact ⟨h', h1, fun l hl => (h3 l hl).1⟩

/-! ## Euler -/

/-- Euler's method as a tableau -/
def eulerTableau : Tableau ℝ := ⟨[], [1], [0]⟩

theorem euler_conditions : OrderConditions eulerTableau.aij eulerTableau.bi eulerTableau.size 1 := by
  intro τ hτ
  cases τ with
  | leaf c => simp [eulerTableau, Tableau.size, Tableau.bi, stageWeight, exactWeight, PTree.size]
  | graft a r =>
    have h1 := a.size_pos
    have h2 := r.size_pos
    simp only [PTree.size] at hτ
    omega

theorem euler_nodes : ∀ i, i < eulerTableau.size → eulerTableau.ci i = ∑ j ∈ range i, eulerTableau.aij i j := by
  intro i hi
  simp only [Tableau.size, eulerTableau, List.length_nil] at hi
  interval_cases i
  simp [Tableau.ci]

theorem euler_result (f : V → ℝ → V) (x : V) (t dt : ℝ) :
    eulerTableau.result x dt (eulerTableau.stageFn f x t dt) = x + dt • f x t := by
  have h0 := eulerTableau.stageFn_isStages f x t dt 0 (by simp [Tableau.size])
  simp only [Tableau.result, Tableau.size, eulerTableau, List.length_nil, Nat.zero_add, Finset.sum_range_one, Tableau.bi, List.getD_cons_zero,
    one_smul] at h0 ⊢
  rw [h0]
  simp [Tableau.stagePoint, Tableau.stageTime, Tableau.ci]

/-! ## Dormand-Prince -/

theorem dopri5Fun_stages {V : Type} [AddCommGroup V] [Module ℝ V] (f : V → ℝ → V) (x : V) (t dt : ℝ) :
    dopri5Fun f x (f x t) t dt =
      ⟨dopri5Tableau.stageFn f x t dt 2, dopri5Tableau.stageFn f x t dt 3, dopri5Tableau.stageFn f x t dt 4,
        dopri5Tableau.stageFn f x t dt 5, dopri5Tableau.result x dt (dopri5Tableau.stageFn f x t dt), dopri5Tableau.stageFn f x t dt 6⟩ := by
  set k := dopri5Tableau.stageFn f x t dt with hk
  have hs := dopri5Tableau.stageFn_isStages f x t dt
  rw [← hk] at hs
  have h0 := hs 0 (by decide)
  have h1 := hs 1 (by decide)
  have h2 := hs 2 (by decide)
  have h3 := hs 3 (by decide)
  have h4 := hs 4 (by decide)
  have h5 := hs 5 (by decide)
  have h6 := hs 6 (by decide)
  simp only [Tableau.stagePoint, Tableau.stageTime, Tableau.ci, Tableau.aij, dopri5Tableau, Finset.sum_range_succ, Finset.sum_range_zero,
    List.getD_cons_zero, List.getD_cons_succ, smul_zero, add_zero, zero_mul, zero_add, lit, Int.cast_zero, zero_smul, Int.cast_one, one_mul]
    at h0 h1 h2 h3 h4 h5 h6
  have e1 : k 1 = f (lin [((lit 1 : ℝ), x), (dt * frac 1 5, k 0)]) (t + dt * frac 1 5) := by
    rw [h1, lin_exact]
    simp only [List.map_cons, List.map_nil, List.sum_cons, List.sum_nil, lit, Int.cast_one, one_smul, add_zero, smul_smul, mul_comm dt]
  have e2 : k 2 = f (lin [((lit 1 : ℝ), x), (dt * frac 3 40, k 0), (dt * frac 9 40, k 1)]) (t + dt * frac 3 10) := by
    rw [h2, lin_exact]
    simp only [List.map_cons, List.map_nil, List.sum_cons, List.sum_nil, lit, Int.cast_one, one_smul, add_zero, smul_smul, mul_comm dt, smul_add]
  have e3 : k 3 = f (lin [((lit 1 : ℝ), x), (dt * frac 44 45, k 0), (dt * frac (-56) 15, k 1), (dt * frac 32 9, k 2)])
      (t + dt * frac 4 5) := by
    rw [h3, lin_exact]
    simp only [List.map_cons, List.map_nil, List.sum_cons, List.sum_nil, lit, Int.cast_one, one_smul, add_zero, smul_smul, mul_comm dt, smul_add,
      add_assoc]
  have e4 : k 4 = f (lin [((lit 1 : ℝ), x), (dt * frac 19372 6561, k 0), (dt * frac (-25360) 2187, k 1),
      (dt * frac 64448 6561, k 2), (dt * frac (-212) 729, k 3)]) (t + dt * frac 8 9) := by
    rw [h4, lin_exact]
    simp only [List.map_cons, List.map_nil, List.sum_cons, List.sum_nil, lit, Int.cast_one, one_smul, add_zero, smul_smul, mul_comm dt, smul_add,
      add_assoc]
  have e5 : k 5 = f (lin [((lit 1 : ℝ), x), (dt * frac 9017 3168, k 0), (dt * frac (-355) 33, k 1),
      (dt * frac 46732 5247, k 2), (dt * frac 49 176, k 3), (dt * frac (-5103) 18656, k 4)]) (t + dt) := by
    rw [h5, lin_exact]
    simp only [List.map_cons, List.map_nil, List.sum_cons, List.sum_nil, lit, Int.cast_one, one_smul, add_zero, smul_smul, mul_comm dt, smul_add,
      add_assoc]
  have ey : dopri5Tableau.result x dt k = lin [((lit 1 : ℝ), x), (dt * frac 35 384, k 0), (dt * frac 500 1113, k 2), (dt * frac 125 192, k 3),
      (dt * frac (-2187) 6784, k 4), (dt * frac 11 84, k 5)] := by
    rw [lin_exact, Tableau.result, show (dopri5Tableau : Tableau ℝ).size = 7 from rfl]
    simp only [Tableau.bi, dopri5Tableau, Finset.sum_range_succ, Finset.sum_range_zero, List.getD_cons_zero, List.getD_cons_succ, List.map_cons, List.map_nil, List.sum_cons, List.sum_nil, lit,
      Int.cast_one, Int.cast_zero, zero_smul, one_smul, add_zero, zero_add, smul_smul, mul_comm dt, smul_add, add_assoc]
  have e6 : k 6 = f (dopri5Tableau.result x dt k) (t + dt) := by
    rw [h6, ey, lin_exact]
    simp only [List.map_cons, List.map_nil, List.sum_cons, List.sum_nil, lit, Int.cast_one, one_smul, add_zero, smul_smul, mul_comm dt, smul_add,
      add_assoc]
  unfold dopri5Fun
  rw [← h0]
  simp only [← e1, ← e2, ← e3, ← e4, ← e5, ← ey, ← e6]

theorem dopri5_errorEstimate (f : V → ℝ → V) (x : V) (t dt : ℝ) :
    dopri5Error (f x t) dt (dopri5Fun f x (f x t) t dt) =
      dopri5Tableau.errorEstimate dopri5Db dt (dopri5Tableau.stageFn f x t dt) := by
  have h0 : dopri5Tableau.stageFn f x t dt 0 = f x t := by
    rw [dopri5Tableau.stageFn_isStages f x t dt 0 (by decide)]
    simp [Tableau.stagePoint, Tableau.stageTime, Tableau.ci, dopri5Tableau, lit]
  rw [dopri5Fun_stages, dopri5Error, lin_exact, Tableau.errorEstimate, show (dopri5Tableau : Tableau ℝ).size = 7 from rfl, ← h0]
  simp only [dopri5Db, Finset.sum_range_succ, Finset.sum_range_zero, List.getD_cons_zero, List.getD_cons_succ, List.map_cons, List.map_nil,
    List.sum_cons, List.sum_nil, lit, Int.cast_zero, zero_smul, add_zero, zero_add, smul_smul, smul_add, add_assoc]

theorem dopri5Step_value {V W : Type} [AddCommGroup V] [Module ℝ V] 
    {sys : Sys ℝ V W} {f : V → ℝ → V} (hs : Evaluates sys f) (x k : V) (t dt : ℝ) (w : W) :
    ∃ w', dopri5Step sys x k t dt w = .ok (dopri5Fun f x k t dt) w' := by
  unfold dopri5Step
  obtain ⟨w, h⟩ := hs.bind _ _ w _; rw [h]; clear h
  obtain ⟨w, h⟩ := hs.bind _ _ w _; rw [h]; clear h
  obtain ⟨w, h⟩ := hs.bind _ _ w _; rw [h]; clear h
  obtain ⟨w, h⟩ := hs.bind _ _ w _; rw [h]; clear h
  obtain ⟨w, h⟩ := hs.bind _ _ w _; rw [h]; clear h
  obtain ⟨w, h⟩ := hs.bind _ _ w _; rw [h]; clear h
  exact ⟨w, rfl⟩

/-! ## C31 -/

theorem midpointStep_value {V W : Type} [AddCommGroup V] [Module ℝ V] 
    {sys : Sys ℝ V W} {f : V → ℝ → V} (hs : Evaluates sys f) (m : ℕ) (hm : 1 ≤ m) (x : V) (t dt : ℝ) (w : W) :
    ∃ w', midpointStep m sys x (f x t) t dt w = .ok (graggValue f m x t dt) w' := by
  have hr : Returns sys f := by
    intro x t w v w' h
    obtain ⟨w'', h'⟩ := hs x t w
    rw [h] at h'
    exact (Res.ok.inj h').1
  have lf : ∀ (h : ℝ) n th (x0 x1 d : V) w, ∃ r w', leapFrog sys h n th x0 x1 d w = .ok r w' := by
    intro h n
    induction n with
    | zero => intro th x0 x1 d w; exact ⟨_, w, rfl⟩
    | succ n ih =>
      intro th x0 x1 d w
      obtain ⟨w1, h1⟩ := hs.bind (lin [((lit 1 : ℝ), x0), (lit 2 * h, d)]) (th + h) w fun d' =>
        leapFrog sys h n (th + h) x1 (lin [((lit 1 : ℝ), x0), (lit 2 * h, d)]) d'
      obtain ⟨r, w2, h2⟩ := ih (th + h) x1 (lin [((lit 1 : ℝ), x0), (lit 2 * h, d)]) _ w1
      exact ⟨r, w2, h1.trans h2⟩
  have ex : ∃ v w', midpointStep m sys x (f x t) t dt w = .ok v w' := by
    unfold midpointStep
    obtain ⟨w1, h1⟩ := hs.bind (lin [((lit 1 : ℝ), x), (dt / lit m, f x t)]) (t + dt / lit m) w fun d => do
      let r ← leapFrog sys (dt / lit m) (m - 1) (t + dt / lit m) x (lin [((lit 1 : ℝ), x), (dt / lit m, f x t)]) d
      pure (lin [((frac 1 2 : ℝ), r.1), (frac 1 2, r.2.1), (frac 1 2 * (dt / lit m), r.2.2)])
    obtain ⟨r, w2, h2⟩ := lf (dt / lit m) (m - 1) (t + dt / lit m) x (lin [((lit 1 : ℝ), x), (dt / lit m, f x t)]) _ w1
    exact ⟨_, w2, h1.trans (M.bind_ok h2 _)⟩
  obtain ⟨v, w', h⟩ := ex
  exact ⟨w', by rw [h, midpointStep_returns hr m hm x t dt w w' v h]⟩

theorem graggValue_order (m : ℕ) (hm : 1 ≤ m) {f : V → ℝ → V} {x0 : V} {t0 : ℝ} {φ : ℝ → V} (hf : SmoothAt f 2 x0 t0)
    (hφ : IsSolution f x0 t0 φ) : LocalOrder 2 (fun h => graggValue f m x0 t0 h) t0 φ := by
  have hf' : ContDiffAt ℝ (((1 : ℕ) : WithTop ℕ∞) + 1) (fun z : V × ℝ => f z.1 z.2) (x0, t0) := by
    exact_mod_cast hf
  have h0 : (m : ℝ) ≠ 0 := by exact_mod_cast (by omega : m ≠ 0)
  have h1 := rk_expand (A := fun i j => alpha i j / m) (c := fun i => (i : ℝ) / m) (n := m + 1)
    (fun i _ => by rw [← Finset.sum_div, alpha_sum]) hf' (k := fun i h => graggStage f x0 t0 (h / m) i)
    (fun i _ h => graggStage_rk f m hm x0 t0 h i) (graggB m)
  have h2 := solution_expand hf' hφ.start hφ.deriv
  unfold LocalOrder
  refine (h1.sub h2 fun s hs => ?_).congr_left fun h => ?_
  · cases s with
    | zero => rfl
    | succ s => exact tsum_congr s fun τ hτ => by rw [gragg_conditions m hm τ (by omega)]
  · show _ = graggValue f m x0 t0 h - _
    rw [graggValue_rk f m hm]
    abel

/-- What a step of each stepper returns. -/
theorem recipe_order (s : ExplicitStepper ℝ) (hw : s.WellFormed) {p : ℕ} (hp : s.order = some p) {sys : Sys ℝ V W} {f : V → ℝ → V}
    (hs : Evaluates sys f) {x0 : V} {t0 : ℝ} {φ : ℝ → V} (hf : SmoothAt f p x0 t0) (hφ : IsSolution f x0 t0 φ) :
    ∃ step : ℝ → V, (∀ h w, ∃ w', s.recipe sys x0 (f x0 t0) t0 h w = .ok (step h) w') ∧ LocalOrder p step t0 φ := by
  have key : ∀ (T : Tableau ℝ) (q : ℕ), T.WellFormed → 1 ≤ q → q = p → (∀ i, i < T.size → T.ci i = ∑ j ∈ range i, T.aij i j) →
      OrderConditions T.aij T.bi T.size q →
      ∃ step : ℝ → V, (∀ h w, ∃ w', rkStep T sys x0 (f x0 t0) t0 h w = .ok (step h) w') ∧ LocalOrder p step t0 φ := by
    rintro T q hT hq rfl hc hb
    exact ⟨fun h => T.result x0 h (T.stageFn f x0 t0 h), fun h w => rkStep_value hs T hT x0 t0 h w,
      rk_order hc hq hb hf hφ.start hφ.deriv (k := fun i h => T.stageFn f x0 t0 h i) fun h => T.stageFn_isStages f x0 t0 h⟩
  cases s with
  | euler =>
    obtain rfl : 1 = p := Option.some.inj hp
    refine ⟨fun h => x0 + h • f x0 t0, fun h w => ⟨w, ?_⟩, ?_⟩
    · simp only [ExplicitStepper.recipe, eulerStep, M.pure_apply, lin_exact]
      simp [lit]
    · have := rk_order euler_nodes le_rfl euler_conditions hf hφ.start hφ.deriv (k := fun i h => eulerTableau.stageFn f x0 t0 h i)
        fun h => eulerTableau.stageFn_isStages f x0 t0 h
      simpa only [euler_result, LocalOrder] using this
  | generic T => cases hp
  | rk4 => exact key _ 4 rk4Tableau_wf (by norm_num) (Option.some.inj hp) rk4_nodes rk4_conditions
  | rk4Classic =>
    simp only [ExplicitStepper.recipe, ← rk4_recipe_eq]
    exact key _ 4 rk4Tableau_wf (by norm_num) (Option.some.inj hp) rk4_nodes rk4_conditions
  | cashKarp => exact key _ 5 cashKarpTableau_wf (by norm_num) (Option.some.inj hp) cashKarp_nodes cashKarp_conditions
  | cashKarpClassic =>
    simp only [ExplicitStepper.recipe, ← cashKarp_recipe_eq]
    exact key _ 5 cashKarpTableau_wf (by norm_num) (Option.some.inj hp) cashKarp_nodes cashKarp_conditions
  | fehlberg => exact key _ 8 fehlbergTableau_wf (by norm_num) (Option.some.inj hp) fehlberg_nodes fehlberg_conditions
  | midpoint m =>
    obtain rfl : 2 = p := Option.some.inj hp
    exact ⟨fun h => graggValue f m x0 t0 h, fun h w => midpointStep_value hs m hw.1 x0 t0 h w, graggValue_order m hw.1 hf hφ⟩

/-! The problem `x' = x²`, `x(0) = 1` with the solution `1 / (1 - t)`, as a concrete instance of the hypotheses of the theorems below. -/

theorem riccati_evaluates : Evaluates (countSys fun (x : ℝ) (_ : ℝ) => x ^ 2) fun x _ => x ^ 2 := fun _ _ n => ⟨n + 1, rfl⟩

theorem riccati_smooth (p : ℕ) : SmoothAt (fun (x : ℝ) (_ : ℝ) => x ^ 2) p 1 0 := by
  unfold SmoothAt
  fun_prop

theorem riccati_solution : IsSolution (fun (x : ℝ) (_ : ℝ) => x ^ 2) 1 0 fun t => 1 / (1 - t) where
  start := by norm_num
  deriv := by
    have : ∀ᶠ t : ℝ in 𝓝 0, t ≠ 1 := (isOpen_ne.eventually_mem (by norm_num : (0 : ℝ) ≠ 1))
    filter_upwards [this] with t ht
    have h0 : (1 : ℝ) - t ≠ 0 := sub_ne_zero.2 (Ne.symm ht)
    have := ((hasDerivAt_id t).const_sub 1).fun_inv h0
    simp only [id, neg_neg] at this
    rw [show (fun t : ℝ => 1 / (1 - t)) = fun i => (1 - i)⁻¹ from funext fun t => one_div _,
      show (1 / (1 - t)) ^ 2 = 1 / (1 - t) ^ 2 by rw [div_pow, one_pow]]
    exact this

/-- **C31.**  `euler`, `runge_kutta4`, `runge_kutta4_classic`, `runge_kutta_cash_karp54(_classic)`, `runge_kutta_fehlberg78` and
`modified_midpoint` have the order they report: for every `p` times continuously differentiable right-hand side, `p = order()`, every
initial value and the solution through it, the result of one step of size `h` (in place or out of place) differs from the solution by
`O(h^(p+1))`. -/
theorem explicit_steppers_order (s : ExplicitStepper ℝ) (hw : s.WellFormed) {p : ℕ} (hp : s.order = some p) {sys : Sys ℝ V W}
    {f : V → ℝ → V} (hs : Evaluates sys f) {x0 : V} {t0 : ℝ} {φ : ℝ → V} (hf : SmoothAt f p x0 t0) (hφ : IsSolution f x0 t0 φ)
    (x out : ℕ) : ∃ step : ℝ → V, StepsTo (fun _ => True) (fun h => doStep3 s.impl sys (.user x) t0 (.user out) h) (.user x) x0 (.user out) step ∧
      LocalOrder p step t0 φ := by
  obtain ⟨step, h1, h2⟩ := recipe_order s hw hp hs hf hφ
  refine ⟨step, fun h heap _ hx => ?_, h2⟩
  obtain ⟨w1, e1⟩ := hs.bind x0 t0 heap.world fun k => s.recipe sys x0 k t0 h
  obtain ⟨w2, e2⟩ := h1 h w1
  have H := doStep3_implements s hw sys (.user x) (.user out) t0 h heap (ownedBy_user _ _)
  rw [hx] at H
  obtain ⟨heap', r1, r2⟩ := H.total (e1.trans e2)
  exact ⟨heap', r1, by rw [r2 _ (ownedBy_user _ _)]; simp [Heap.setAll]⟩

/-- One step of `runge_kutta_fehlberg78` for `x' = x²`, in place. -/
example : ∃ step : ℝ → ℝ, StepsTo (fun _ => True) (fun h => doStep3 (ExplicitStepper.fehlberg (K := ℝ)).impl (countSys fun (x : ℝ) (_ : ℝ) => x ^ 2)
    (.user 0) 0 (.user 0) h) (.user 0) 1 (.user 0) step ∧ LocalOrder 8 step 0 fun t => 1 / (1 - t) :=
  explicit_steppers_order (ExplicitStepper.fehlberg (K := ℝ)) trivial rfl riccati_evaluates (riccati_smooth 8) riccati_solution 0 0

/-- the derivative a `runge_kutta_dopri5` step starts from is up to date: nothing is cached, or the cached derivative belongs to the state -/
def DopriReady (f : V → ℝ → V) (x0 : V) (t0 : ℝ) (h : Heap ℝ V W) : Prop := h.flag mFirstCall = true ∨ h.state mDxdt = f x0 t0

theorem fsalDeriv_value {sys : Sys ℝ V W} {f : V → ℝ → V} (hs : Evaluates sys f) {x0 : V} {t0 : ℝ} {h : Heap ℝ V W} (hr : DopriReady f x0 t0 h)
    (resized : Bool) (w : W) :
    ∃ w', fsalDeriv (resized || h.flag mFirstCall) (h.state mDxdt) sys x0 t0 w = .ok (f x0 t0) w' := by
  unfold fsalDeriv
  rcases hr with h1 | h1
  · rw [h1, Bool.or_true, if_pos rfl]
    exact hs x0 t0 w
  · split
    · exact hs x0 t0 w
    · exact ⟨w, by rw [h1]; rfl⟩

theorem dopri5_order_value {f : V → ℝ → V} {x0 : V} {t0 : ℝ} {φ : ℝ → V} (hf : SmoothAt f 5 x0 t0) (hφ : IsSolution f x0 t0 φ) :
    LocalOrder 5 (fun h => (dopri5Fun f x0 (f x0 t0) t0 h).x) t0 φ := by
  have := rk_order dopri5_nodes (by norm_num) dopri5_conditions hf hφ.start hφ.deriv (k := fun i h => dopri5Tableau.stageFn f x0 t0 h i)
    fun h => dopri5Tableau.stageFn_isStages f x0 t0 h
  simp only [dopri5Fun_stages]
  exact this

/-- **C31** for `runge_kutta_dopri5`, whose `order()` is 5 (`OI/stepper/runge_kutta_dopri5.hpp:54-56`). -/
theorem dopri5_order {sys : Sys ℝ V W} {f : V → ℝ → V} (hs : Evaluates sys f) {x0 : V} {t0 : ℝ} {φ : ℝ → V} (hf : SmoothAt f 5 x0 t0)
    (hφ : IsSolution f x0 t0 φ) (resized : Bool) (x out : ℕ) : ∃ step : ℝ → V,
      StepsTo (DopriReady f x0 t0) (fun h => fsalStep3 dopri5Impl resized sys (.user x) t0 (.user out) h) (.user x) x0 (.user out) step ∧
      LocalOrder 5 step t0 φ := by
  refine ⟨fun h => (dopri5Fun f x0 (f x0 t0) t0 h).x, fun h heap hr hx => ?_, dopri5_order_value hf hφ⟩
  obtain ⟨w1, e1⟩ := fsalDeriv_value hs hr resized heap.world
  obtain ⟨w2, e2⟩ := dopri5Step_value hs x0 (f x0 t0) t0 h w1
  have H := dopri5Step3_implements resized sys (.user x) (.user out) t0 h heap (ownedBy_user _ _) (ownedBy_user _ _)
  rw [hx] at H
  obtain ⟨heap', r1, r2⟩ := H.total ((M.bind_ok e1 _).trans (M.bind_ok e2 _))
  exact ⟨heap', r1, by rw [r2 _ (ownedBy_user _ _)]; simp [Heap.setAll]⟩

/-- The first step of `runge_kutta_dopri5` for `x' = x²`. -/
example : ∃ step : ℝ → ℝ, StepsTo (DopriReady (fun (x : ℝ) (_ : ℝ) => x ^ 2) 1 0) (fun h => fsalStep3 dopri5Impl false
    (countSys fun (x : ℝ) (_ : ℝ) => x ^ 2) (.user 0) 0 (.user 1) h) (.user 0) 1 (.user 1) step ∧ LocalOrder 5 step 0 fun t => 1 / (1 - t) :=
  dopri5_order riccati_evaluates (riccati_smooth 5) riccati_solution false 0 1

/-! ## C32 -/

/-- What C32 says of a step with error estimate: the estimate is of order `h^(q+1)` with `q = error_order()`, and the result minus the
estimate is a method of order `q`. -/
structure ErrorOrder (p q : ℕ) (step err : ℝ → V) (t0 : ℝ) (φ : ℝ → V) : Prop where
  order : LocalOrder p step t0 φ
  small : err =O[𝓝 0] fun h : ℝ => h ^ (q + 1)
  embedded : LocalOrder q (fun h => step h - err h) t0 φ

theorem ErrorOrder.of {p q : ℕ} (hq : q ≤ p) {step err : ℝ → V} {t0 : ℝ} {φ : ℝ → V} (h1 : LocalOrder p step t0 φ)
    (h2 : err =O[𝓝 0] fun h : ℝ => h ^ (q + 1)) : ErrorOrder p q step err t0 φ := by
  refine ⟨h1, h2, ?_⟩
  unfold LocalOrder at *
  refine ((h1.trans (pow_isBigO (by omega))).sub h2).congr_left fun h => ?_
  simp only []
  abel

/-- **C32.**  The error estimates of `runge_kutta_cash_karp54(_classic)` and `runge_kutta_fehlberg78` are of order `h^(q+1)` with
`q = error_order()`, and the embedded result, the new state minus the estimate, has order `q`. -/
theorem error_steppers_order (s : ErrorStepper ℝ) {p q : ℕ} (hp : s.toExplicit.order = some p) (hq : s.errorOrder = some q)
    {sys : Sys ℝ V W} {f : V → ℝ → V} (hs : Evaluates sys f) {x0 : V} {t0 : ℝ} {φ : ℝ → V} (hf : SmoothAt f p x0 t0)
    (hφ : IsSolution f x0 t0 φ) (x out e : ℕ) (hne : out ≠ e) : ∃ step err : ℝ → V,
      StepsTo (fun _ => True) (fun h => doStep7 s.errImpl sys (.user x) t0 (.user out) h (.user e)) (.user x) x0 (.user out) step ∧
      StepsTo (fun _ => True) (fun h => doStep7 s.errImpl sys (.user x) t0 (.user out) h (.user e)) (.user x) x0 (.user e) err ∧
      ErrorOrder p q step err t0 φ := by
  have hw : s.WellFormed := by cases s <;> trivial
  have key : ∀ (T : Tableau ℝ) (b2 : List ℝ) (p' q' : ℕ), T.WellFormed → 1 ≤ q' → q' ≤ p' → p' = p → q' = q →
      (∀ i, i < T.size → T.ci i = ∑ j ∈ range i, T.aij i j) →
      b2.length = T.size → OrderConditions T.aij T.bi T.size p' → VanishingConditions T.aij (fun i => b2.getD i 0) T.size q' →
      ∃ step err : ℝ → V, (∀ h w, ∃ w', rkErrStep T b2 sys x0 (f x0 t0) t0 h w = .ok (step h, err h) w') ∧ ErrorOrder p q step err t0 φ := by
    rintro T b2 p' q' hT hq1 hqp rfl rfl hc hb2 hb hv
    refine ⟨fun h => T.result x0 h (T.stageFn f x0 t0 h), fun h => T.errorEstimate b2 h (T.stageFn f x0 t0 h),
      fun h w => rkErrStep_value hs T hT b2 hb2 x0 t0 h w, ErrorOrder.of hqp ?_ ?_⟩
    · exact rk_order hc (by omega) hb hf hφ.start hφ.deriv (k := fun i h => T.stageFn f x0 t0 h i) fun h => T.stageFn_isStages f x0 t0 h
    · exact rk_small hc hq1 hv (hf.of_le (by exact_mod_cast hqp)) (k := fun i h => T.stageFn f x0 t0 h i) fun h => T.stageFn_isStages f x0 t0 h
  have val : ∃ step err : ℝ → V, (∀ h w, ∃ w', s.errRecipe sys x0 (f x0 t0) t0 h w = .ok (step h, err h) w') ∧
      ErrorOrder p q step err t0 φ := by
    cases s with
    | generic T b2 => cases hp
    | cashKarp =>
      exact key _ cashKarpDb 5 4 cashKarpTableau_wf (by norm_num) (by norm_num) (Option.some.inj hp) (Option.some.inj hq) cashKarp_nodes rfl
        cashKarp_conditions cashKarp_error_conditions
    | cashKarpClassic =>
      simp only [ErrorStepper.errRecipe, ← cashKarp_errRecipe_eq]
      exact key _ cashKarpDb 5 4 cashKarpTableau_wf (by norm_num) (by norm_num) (Option.some.inj hp) (Option.some.inj hq) cashKarp_nodes rfl
        cashKarp_conditions cashKarp_error_conditions
    | fehlberg =>
      exact key _ fehlbergDb 8 7 fehlbergTableau_wf (by norm_num) (by norm_num) (Option.some.inj hp) (Option.some.inj hq) fehlberg_nodes rfl
        fehlberg_conditions fehlberg_error_conditions
  obtain ⟨step, err, h1, h2⟩ := val
  have run : ∀ h (heap : Heap ℝ V W), heap.state (.user x) = x0 →
      ∃ heap', doStep7 s.errImpl sys (.user x) t0 (.user out) h (.user e) heap = .ok () heap' ∧ heap'.state (.user out) = step h ∧
        heap'.state (.user e) = err h := by
    intro h heap hx
    obtain ⟨w1, e1⟩ := hs.bind x0 t0 heap.world fun k => s.errRecipe sys x0 k t0 h
    obtain ⟨w2, e2⟩ := h1 h w1
    have H := doStep7_implements s hw sys (.user x) (.user out) (.user e) t0 h heap (ownedBy_user _ _) (ownedBy_user _ _)
    rw [hx] at H
    obtain ⟨heap', r1, r2⟩ := H.total (e1.trans e2)
    refine ⟨heap', r1, ?_, ?_⟩
    · rw [r2 _ (ownedBy_user _ _)]; simp [Heap.setAll, Heap.set_state_apply, hne]
    · rw [r2 _ (ownedBy_user _ _)]; simp [Heap.setAll]
  refine ⟨step, err, fun h heap _ hx => ?_, fun h heap _ hx => ?_, h2⟩
  · obtain ⟨heap', r1, r2, -⟩ := run h heap hx; exact ⟨heap', r1, r2⟩
  · obtain ⟨heap', r1, -, r2⟩ := run h heap hx; exact ⟨heap', r1, r2⟩

/-- `runge_kutta_cash_karp54` for `x' = x²`. -/
example : ∃ step err : ℝ → ℝ,
    StepsTo (fun _ => True) (fun h => doStep7 (ErrorStepper.cashKarp (K := ℝ)).errImpl (countSys fun (x : ℝ) (_ : ℝ) => x ^ 2) (.user 0) 0 (.user 1) h
      (.user 2)) (.user 0) 1 (.user 1) step ∧
    StepsTo (fun _ => True) (fun h => doStep7 (ErrorStepper.cashKarp (K := ℝ)).errImpl (countSys fun (x : ℝ) (_ : ℝ) => x ^ 2) (.user 0) 0 (.user 1) h
      (.user 2)) (.user 0) 1 (.user 2) err ∧ ErrorOrder 5 4 step err 0 fun t => 1 / (1 - t) :=
  error_steppers_order (ErrorStepper.cashKarp (K := ℝ)) rfl rfl riccati_evaluates (riccati_smooth 5) riccati_solution 0 1 2 (by norm_num)

/-- **C32** for `runge_kutta_dopri5`, whose `error_order()` is 4. -/
theorem dopri5_error_order {sys : Sys ℝ V W} {f : V → ℝ → V} (hs : Evaluates sys f) {x0 : V} {t0 : ℝ} {φ : ℝ → V} (hf : SmoothAt f 5 x0 t0)
    (hφ : IsSolution f x0 t0 φ) (resized : Bool) (x out e : ℕ) (hne : out ≠ e) : ∃ step err : ℝ → V,
      StepsTo (DopriReady f x0 t0) (fun h => fsalStep7 dopri5ErrImpl resized sys (.user x) t0 (.user out) h (.user e)) (.user x) x0 (.user out)
        step ∧
      StepsTo (DopriReady f x0 t0) (fun h => fsalStep7 dopri5ErrImpl resized sys (.user x) t0 (.user out) h (.user e)) (.user x) x0 (.user e)
        err ∧ ErrorOrder 5 4 step err t0 φ := by
  have run : ∀ h (heap : Heap ℝ V W), DopriReady f x0 t0 heap → heap.state (.user x) = x0 →
      ∃ heap', fsalStep7 dopri5ErrImpl resized sys (.user x) t0 (.user out) h (.user e) heap = .ok () heap' ∧
        heap'.state (.user out) = (dopri5Fun f x0 (f x0 t0) t0 h).x ∧
        heap'.state (.user e) = dopri5Error (f x0 t0) h (dopri5Fun f x0 (f x0 t0) t0 h) := by
    intro h heap hr hx
    obtain ⟨w1, e1⟩ := fsalDeriv_value hs hr resized heap.world
    obtain ⟨w2, e2⟩ := dopri5Step_value hs x0 (f x0 t0) t0 h w1
    have H : Implements [.rk, .base] heap (fsalStep7 dopri5ErrImpl resized sys (.user x) t0 (.user out) h (.user e))
        (fsalDeriv (resized || heap.flag mFirstCall) (heap.state mDxdt) sys (heap.state (.user x)) t0 >>= fun k =>
          dopri5Step sys (heap.state (.user x)) k t0 h >>= fun r => pure (r, dopri5Error k h r))
        (fun r => [(.user out, r.1.x), (mDxdt, r.1.k7), (.user e, r.2)]) [.user out, mDxdt] := by
      unfold fsalStep7
      refine fsalPrepare_implements resized sys (.user x) t0 heap _ (by simp) (by simp [mDxdt]) _ _ _ _ fun k h' h1 h2 => ?_
      have := (dopri5Err_implements sys (.user x) mDxdt (.user out) mDxdt (.user e) t0 h h' (ownedBy_user _ _) (by simp [mDxdt, Loc.ownedBy])
        (ownedBy_user _ _) (by simp [mDxdt, Loc.ownedBy]) (by simp [mDxdt]) (by simp [mDxdt])).mono_own (os' := [.rk, .base]) (by simp)
      rwa [h1, h2 _ (by simp [mDxdt])] at this
    rw [hx] at H
    obtain ⟨heap', r1, r2⟩ := H.total ((M.bind_ok e1 _).trans (M.bind_ok e2 _))
    refine ⟨heap', r1, ?_, ?_⟩
    · rw [r2 _ (ownedBy_user _ _)]; simp [Heap.setAll, Heap.set_state_apply, hne, mDxdt]
    · rw [r2 _ (ownedBy_user _ _)]; simp [Heap.setAll]
  refine ⟨_, _, fun h heap hr hx => ?_, fun h heap hr hx => ?_, ErrorOrder.of (by norm_num) (dopri5_order_value hf hφ) (?_ :
    (fun h => dopri5Error (f x0 t0) h (dopri5Fun f x0 (f x0 t0) t0 h)) =O[𝓝 0] fun h : ℝ => h ^ (4 + 1))⟩
  · obtain ⟨heap', r1, r2, -⟩ := run h heap hr hx; exact ⟨heap', r1, r2⟩
  · obtain ⟨heap', r1, -, r2⟩ := run h heap hr hx; exact ⟨heap', r1, r2⟩
  · simp only [dopri5_errorEstimate]
    exact rk_small dopri5_nodes (by norm_num) dopri5_error_conditions (hf.of_le (by norm_cast))
      (k := fun i h => dopri5Tableau.stageFn f x0 t0 h i) fun h => dopri5Tableau.stageFn_isStages f x0 t0 h

example : ∃ step err : ℝ → ℝ,
    StepsTo (DopriReady (fun (x : ℝ) (_ : ℝ) => x ^ 2) 1 0) (fun h => fsalStep7 dopri5ErrImpl true (countSys fun (x : ℝ) (_ : ℝ) => x ^ 2) (.user 0) 0
      (.user 0) h (.user 2)) (.user 0) 1 (.user 0) step ∧
    StepsTo (DopriReady (fun (x : ℝ) (_ : ℝ) => x ^ 2) 1 0) (fun h => fsalStep7 dopri5ErrImpl true (countSys fun (x : ℝ) (_ : ℝ) => x ^ 2) (.user 0) 0
      (.user 0) h (.user 2)) (.user 0) 1 (.user 2) err ∧ ErrorOrder 5 4 step err 0 fun t => 1 / (1 - t) :=
  dopri5_error_order riccati_evaluates (riccati_smooth 5) riccati_solution true 0 0 2 (by norm_num)

end Verif
