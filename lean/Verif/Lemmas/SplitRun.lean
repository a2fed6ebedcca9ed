import Verif.Spec.SymplecticRun
import Verif.Lemmas.SplitTables
import Verif.Props.Convergence
import Verif.Props.Verlet

/-! # Splitting methods: regularity, and the steppers compute them -/

namespace Verif
open Asymptotics Filter Topology Finset BSeries

section
variable {E : Type} [NormedAddCommGroup E] [NormedSpace ℝ E]

theorem regular_substep {F : E → ℝ → E} {n : ℕ} (hF : GoodRhs F n) (c s : ℝ) : RegularStep n fun x t h => x + (c * h) • F x (t + s * h) := by
  refine IsRk.regular hF ⟨1, fun _ _ => 0, fun _ => s, fun _ => c, fun x t h _ => F x (t + s * h), ?_, ?_⟩
  · intro x t h i hi
    obtain rfl : i = 0 := by omega
    simp
  · intro x t h
    simp only [range_one, sum_singleton, smul_smul]
    rw [mul_comm]

theorem RegularStep.then {n : ℕ} {Φ Ψ : E → ℝ → ℝ → E} (h1 : RegularStep n Φ) (h2 : RegularStep n Ψ) :
    RegularStep n fun x t h => Ψ (Φ x t h) t h where
  smooth := h2.smooth.comp (h1.smooth.prodMk contDiff_snd)
  lipschitz B := by
    obtain ⟨C1, hC1, l1⟩ := h1.lipschitz B
    obtain ⟨C2, hC2, l2⟩ := h2.lipschitz B
    refine ⟨C1 + C2 + C1 * C2 * |B|, by positivity, fun x y t h hh => ?_⟩
    refine (l2 _ _ t h hh).trans ((mul_le_mul_of_nonneg_left (l1 x y t h hh) (by positivity)).trans ?_)
    rw [← mul_assoc]
    refine mul_le_mul_of_nonneg_right ?_ (norm_nonneg _)
    have h3 : |h| ≤ |B| := hh.trans (le_abs_self B)
    have h4 : C1 * C2 * |h| * |h| ≤ C1 * C2 * |h| * |B| := mul_le_mul_of_nonneg_left h3 (by positivity)
    linarith

theorem regular_id (n : ℕ) : RegularStep n fun (x : E) _ _ => x where
  smooth := contDiff_fst
  lipschitz B := ⟨0, le_rfl, fun x y t h _ => by simp⟩

theorem regular_splitStep {n : ℕ} {f : Bool → E → E} (hf : ∀ c, GoodRhs (fun x _ => f c x) n) (L : List (Bool × ℝ)) :
    ∀ {Ψ : E → ℝ → ℝ → E}, RegularStep n Ψ → RegularStep n fun x t h => splitStep f L h (Ψ x t h) := by
  induction L with
  | nil => exact fun h => h
  | cons e L ih =>
    intro Ψ hΨ
    have := hΨ.then (regular_substep (hf e.1) e.2 0)
    exact ih this

end

variable {V W : Type} [NormedAddCommGroup V] [NormedSpace ℝ V]

/-! ## Separable systems -/

/-- the two parts of a separable system -/
def sepPart (f g : V → V) : Bool → V × V → V × V
  | false, z => (f z.2, 0)
  | true, z => (0, g z.1)

/-- what the parts depend on -/
noncomputable def sepProj : Bool → V × V →L[ℝ] V × V
  | false => (ContinuousLinearMap.inr ℝ V V).comp (ContinuousLinearMap.snd ℝ V V)
  | true => (ContinuousLinearMap.inl ℝ V V).comp (ContinuousLinearMap.fst ℝ V V)

theorem sep_splits (f g : V → V) : Splits (sepPart f g) sepProj where
  idem c x := by cases c <;> simp [sepProj]
  dep c x := by cases c <;> simp [sepPart, sepProj]
  range c x := by cases c <;> simp [sepPart, sepProj]

theorem sepPart_good {f g : V → V} {n : ℕ} (h : GoodRhs (separable f g) n) (c : Bool) : GoodRhs (fun x _ => sepPart f g c x) n := by
  obtain ⟨L, hL⟩ := h.lipschitz
  cases c with
  | false =>
    refine ⟨(contDiff_fst.comp h.smooth).prodMk contDiff_const, L, fun x y t => le_trans ?_ (hL x y t)⟩
    simp [sepPart, separable, Prod.norm_def]
  | true =>
    refine ⟨contDiff_const.prodMk (contDiff_snd.comp h.smooth), L, fun x y t => le_trans ?_ (hL x y t)⟩
    simp [sepPart, separable, Prod.norm_def]

theorem splitStep_subSteps (f g : V → V) (coef : List (ℝ × ℝ)) (h : ℝ) : ∀ z, splitStep (sepPart f g) (subSteps coef) h z =
    coef.foldl (fun z c => kick g (c.2 * h) (drift f (c.1 * h) z)) z := by
  induction coef with
  | nil => intro z; rfl
  | cons c cs ih =>
    intro z
    rw [List.foldl_cons, ← ih]
    simp [splitStep, subSteps, sepPart, kick, drift, Prod.add_def]

/-- The order of a symplectic stepper, from the order conditions. -/
theorem symplectic_order_of [CompleteSpace V] {coef : List (ℝ × ℝ)} {p : ℕ} (hp : 1 ≤ p) (hL : SplitConditions (subSteps coef) p) {f g : V → V}
    {z0 : V × V} {t0 : ℝ} (hs : SmoothAt (separable f g) p z0 t0) {φ : ℝ → V × V} (hφ : IsSolution (separable f g) z0 t0 φ) :
    LocalOrder p (fun h => sympMap coef f g h z0) t0 φ := by
  have hc : ∀ c, ContDiffAt ℝ p (sepPart f g c) z0 := by
    have h1 : ContDiffAt ℝ p (fun z => separable f g z t0) z0 :=
      ContDiffAt.comp (g := fun q : (V × V) × ℝ => separable f g q.1 q.2) (f := fun z => (z, t0)) z0 hs (contDiffAt_id.prodMk contDiffAt_const)
    intro c
    cases c with
    | false => exact (contDiffAt_fst.comp z0 h1).prodMk contDiffAt_const
    | true => exact contDiffAt_const.prodMk (contDiffAt_snd.comp z0 h1)
  have := split_order (sep_splits f g) hp hL hc hφ.start (hφ.deriv.mono fun t ht => by
    simpa [sepPart, separable, Prod.add_def] using ht)
  refine this.congr_left fun h => ?_
  dsimp only
  rw [symplectic_composition, splitStep_subSteps]

/-- A symplectic stepper computes the composition. -/
theorem rknRecipe_ok {coor mom : V → M W V} {f g : V → V} (hf : EvaluatesTo coor f) (hg : EvaluatesTo mom g) (dt : ℝ) (coef : List (ℝ × ℝ)) :
    ∀ q p w, ∃ w', rknRecipe coor mom dt coef q p w = .ok (coef.foldl (fun z c => kick g (c.2 * dt) (drift f (c.1 * dt) z)) (q, p)) w' := by
  induction coef with
  | nil => exact fun q p w => ⟨w, rfl⟩
  | cons c cs ih =>
    intro q p w
    obtain ⟨a, b⟩ := c
    obtain ⟨w1, e1⟩ := hf p w
    obtain ⟨w2, e2⟩ := hg (lin [(lit 1, q), (a * dt, f p)]) w1
    obtain ⟨w3, e3⟩ := ih (lin [(lit 1, q), (a * dt, f p)]) (lin [(lit 1, p), (b * dt, g (lin [(lit 1, q), (a * dt, f p)]))]) w2
    refine ⟨w3, ?_⟩
    rw [rknRecipe, M.bind_ok e1, M.bind_ok e2, e3, List.foldl_cons]
    simp [lin, lit, kick, drift]

theorem pair_stepFn {doStep : Loc → Loc → ℝ → ℝ → StepM ℝ V W Unit} {Φ : V × V → ℝ → V × V}
    (H : ∀ (h : Heap ℝ V W) (t dt : ℝ), ∃ w', ∃ r : M W (V × V), r h.world = .ok (Φ (h.state (.user 0), h.state (.user 1)) dt) w' ∧
      Implements [.symp] h (doStep (.user 0) (.user 1) t dt) r (fun r => [(.user 0, r.1), (.user 1, r.2)]) [.user 0, .user 1]) :
    StepFn (pairStepperObject (K := ℝ) doStep) (fun _ _ _ => True) fun z _ dt => Φ z dt := by
  intro s x t dt w l _
  set h := ((s.set (.user 0) x.1).set (.user 1) x.2).withWorld w with hh
  have h0 : h.state (.user 0) = x.1 := by simp [hh, Heap.withWorld, Heap.set]
  have h1 : h.state (.user 1) = x.2 := by simp [hh, Heap.withWorld, Heap.set]
  obtain ⟨w', r, e, I⟩ := H h t dt
  rw [h0, h1] at e
  obtain ⟨h', e1, e2⟩ := I.total e
  refine ⟨h', h'.world, ?_, trivial⟩
  have u : ∀ n, ¬ (Loc.user n).ownedBy [.symp] := fun n => by simp
  have r0 : h'.state (.user 0) = (Φ x dt).1 := by rw [e2 _ (u 0)]; simp [Heap.setAll, Heap.set_state_apply]
  have r1 : h'.state (.user 1) = (Φ x dt).2 := by rw [e2 _ (u 1)]; simp [Heap.setAll, Heap.set_state_apply]
  simp only [pairStepperObject, ← hh, e1, r0, r1]

theorem symplectic_stepFn {coor mom : V → M W V} {f g : V → V} (hf : EvaluatesTo coor f) (hg : EvaluatesTo mom g) {coef : List (ℝ × ℝ)} (hc : coef ≠ []) :
    StepFn (pairStepperObject (K := ℝ) fun q p _ dt => rknDoStep coef coor mom q p dt) (fun _ _ _ => True)
      fun z _ dt => splitStep (sepPart f g) (subSteps coef) dt z := by
  refine pair_stepFn (Φ := fun z dt => splitStep (sepPart f g) (subSteps coef) dt z) fun h t dt => ?_
  obtain ⟨w', e⟩ := rknRecipe_ok hf hg dt coef (h.state (.user 0)) (h.state (.user 1)) h.world
  have u : ∀ n, ¬ (Loc.user n).ownedBy [.symp] := fun n => by simp
  have n01 : Loc.user 0 ≠ .user 1 := by decide
  refine ⟨w', _, ?_, rknStepPair_implements coor mom _ _ _ _ dt (u 0) (u 1) (u 0) (u 1) n01 n01 coef hc h⟩
  rw [e, splitStep_subSteps]

theorem symplectic_mom_stepFn {mom : V → M W V} {g : V → V} (hg : EvaluatesTo mom g) {coef : List (ℝ × ℝ)} (hc : coef ≠ []) :
    StepFn (pairStepperObject (K := ℝ) fun q p _ dt => rknDoStepMom coef mom q p dt) (fun _ _ _ => True)
      fun z _ dt => splitStep (sepPart id g) (subSteps coef) dt z := by
  refine pair_stepFn (Φ := fun z dt => splitStep (sepPart id g) (subSteps coef) dt z) fun h t dt => ?_
  obtain ⟨w', e⟩ := rknRecipe_ok (coor := pure) (f := id) (fun x w => ⟨w, rfl⟩) hg dt coef (h.state (.user 0)) (h.state (.user 1)) h.world
  have u : ∀ n, ¬ (Loc.user n).ownedBy [.symp] := fun n => by simp
  have n01 : Loc.user 0 ≠ .user 1 := by decide
  refine ⟨w', _, ?_, rknStepMom_implements mom _ _ _ _ dt (u 1) (u 0) (u 1) n01 n01 coef hc h⟩
  rw [e, splitStep_subSteps]

theorem subSteps_regular {f g : V → V} {n : ℕ} (h : GoodRhs (separable f g) n) (coef : List (ℝ × ℝ)) :
    RegularStep n fun z _ dt => splitStep (sepPart f g) (subSteps coef) dt z :=
  regular_splitStep (sepPart_good h) _ (regular_id n)

/-! ## Accelerations -/

/-- the two parts of a second order equation, with the time as a further component -/
def accPart (a : V → ℝ → V) : Bool → (V × V) × ℝ → (V × V) × ℝ
  | false, z => ((z.1.2, 0), 1)
  | true, z => ((0, a z.1.1 z.2), 0)

/-- what the parts depend on -/
noncomputable def accProj : Bool → (V × V) × ℝ →L[ℝ] (V × V) × ℝ
  | false => (ContinuousLinearMap.inl ℝ (V × V) ℝ).comp ((ContinuousLinearMap.inr ℝ V V).comp ((ContinuousLinearMap.snd ℝ V V).comp
      (ContinuousLinearMap.fst ℝ (V × V) ℝ)))
  | true => ContinuousLinearMap.prod ((ContinuousLinearMap.inl ℝ V V).comp ((ContinuousLinearMap.fst ℝ V V).comp
      (ContinuousLinearMap.fst ℝ (V × V) ℝ))) (ContinuousLinearMap.snd ℝ (V × V) ℝ)

theorem acc_splits (a : V → ℝ → V) : Splits (accPart a) accProj where
  idem c x := by cases c <;> simp [accProj]
  dep c x := by cases c <;> simp [accPart, accProj]
  range c x := by cases c <;> simp [accPart, accProj]

/-- the sub-steps of velocity Verlet -/
noncomputable def verletSteps : List (Bool × ℝ) := [(true, 1 / 2), (false, 1), (true, 1 / 2)]

theorem verlet_conditions : SplitConditions verletSteps 2 := by
  refine splitConditions_of (by norm_num) ?_ ?_ (by omega) (by omega)
  · intro c
    cases c <;> simp [totalWeight, verletSteps, stepSum, stepWeight]
    norm_num
  · intro _ c
    cases c <;> simp [totalWeight, verletSteps, stepSum, stepWeight, tree2]

theorem verletMap_split (a : V → ℝ → V) (t h : ℝ) (z : V × V) : verletMap a t h z = (splitStep (accPart a) verletSteps h (z, t)).1 := by
  rw [verlet_composition]
  simp [splitStep, verletSteps, accPart, kick, drift, Prod.add_def]

theorem verlet_order_of [CompleteSpace V] {a : V → ℝ → V} {z0 : V × V} {t0 : ℝ} (hs : SmoothAt (secondOrder a) 2 z0 t0) {φ : ℝ → V × V}
    (hφ : IsSolution (secondOrder a) z0 t0 φ) : LocalOrder 2 (fun h => verletMap a t0 h z0) t0 φ := by
  have hc : ∀ c, ContDiffAt ℝ 2 (accPart a c) (z0, t0) := by
    intro c
    cases c with
    | false => exact ((contDiff_snd.comp contDiff_fst).prodMk contDiff_const).contDiffAt.prodMk contDiffAt_const
    | true => exact (contDiffAt_const.prodMk (contDiffAt_snd.comp _ hs)).prodMk contDiffAt_const
  have h1 := split_order (acc_splits a) (by norm_num) verlet_conditions hc (t0 := t0) (φ := fun t => (φ t, t)) (by rw [hφ.start]) ?_
  · refine (isBigO_fst_prod.trans h1).congr_left fun h => ?_
    dsimp only
    rw [verletMap_split]
  · refine hφ.deriv.mono fun t ht => ?_
    refine (ht.prodMk (hasDerivAt_id t)).congr_deriv ?_
    simp [accPart, secondOrder, Prod.add_def]

/-- The stepper's cached acceleration, if there is one, belongs to the current coordinates and time. -/
def AccCached (a : V → ℝ → V) (h : Heap ℝ V W) (z : V × V) (t : ℝ) : Prop :=
  h.flag mVerletFirst = false → h.state (currentAcc (h.flag mCurrentA1)) = a z.1 t

theorem verletMap_value (a : V → ℝ → V) (t dt : ℝ) (z : V × V) : verletMap a t dt z = verletValue a z.1 z.2 t dt := by
  rw [verletMap_eq]

theorem verlet_general {sys : Sys2 ℝ V W} {a : V → ℝ → V} (hs : Accelerates sys a) (r : Bool) (t dt : ℝ) (h : Heap ℝ V W)
    (hv : AccCached a h (h.state uq, h.state up) t) :
    ∃ h', verletDoStep r sys uq up t dt h = .ok () h' ∧ (h'.state uq, h'.state up) = verletValue a (h.state uq) (h.state up) t dt ∧
      AccCached a h' (h'.state uq, h'.state up) (t + dt) := by
  have n1 : ∀ b, uq ≠ currentAcc b := by intro b; cases b <;> decide
  have n2 : ∀ b, up ≠ currentAcc b := by intro b; cases b <;> decide
  have init : ∃ g', verletInitialize sys uq up t h = .ok () g' ∧
      g'.state uq = h.state uq ∧ g'.state up = h.state up ∧ g'.flag mVerletFirst = false ∧
      g'.state (currentAcc (g'.flag mCurrentA1)) = a (h.state uq) t := by
    obtain ⟨w', e⟩ := hs (h.state uq) (h.state up) t h.world
    refine ⟨(h.put (currentAcc (h.flag mCurrentA1)) (a (h.state uq) t) w').putFlag mVerletFirst false, ?_, ?_, ?_, ?_, ?_⟩
    · simp only [verletInitialize, M.bind_apply, getFlag, callSys2, e, setFlag]
    · simp [Heap.putFlag, Heap.put_state_ne _ _ _ (n1 _)]
    · simp [Heap.putFlag, Heap.put_state_ne _ _ _ (n2 _)]
    · simp [Heap.putFlag]
    · have : (Function.update h.flag mVerletFirst false) mCurrentA1 = h.flag mCurrentA1 := by
        rw [Function.update_of_ne (by decide)]
      simp [Heap.putFlag, this]
  have prep : ∃ g, (do if r || (← getFlag mVerletFirst) then verletInitialize sys uq up t :
      StepM ℝ V W Unit) h = .ok () g ∧ g.state uq = h.state uq ∧ g.state up = h.state up ∧
      g.flag mVerletFirst = false ∧ g.state (currentAcc (g.flag mCurrentA1)) = a (h.state uq) t := by
    rw [M.bind_apply]
    simp only [getFlag]
    by_cases hc : (r || h.flag mVerletFirst) = true
    · simp only [hc, if_true]; exact init
    · simp only [hc]
      have hf : h.flag mVerletFirst = false := by simp at hc; exact hc.2
      exact ⟨h, rfl, rfl, rfl, hf, hv hf⟩
  obtain ⟨g, g1, g2, g3, g4, g5⟩ := prep
  have hr : ∃ w', verletRecipe sys (g.state uq) (g.state up) (g.state (currentAcc (g.flag mCurrentA1))) t dt g.world =
      .ok ((verletValue a (h.state uq) (h.state up) t dt).1, (verletValue a (h.state uq) (h.state up) t dt).2,
        a (verletValue a (h.state uq) (h.state up) t dt).1 (t + dt)) w' := by
    obtain ⟨w', e⟩ := hs (lin [(lit 1, h.state uq), (lit 1 * dt, h.state up), (frac 1 2 * dt * dt, a (h.state uq) t)]) (h.state up) (t + dt) g.world
    refine ⟨w', ?_⟩
    rw [g5, g2, g3]
    simp only [verletRecipe, M.bind_apply, e, M.pure_apply, verletValue]
  obtain ⟨w', hr⟩ := hr
  obtain ⟨h', a1, a2, a3, a4, a5, a6, a7⟩ := (verlet_explicit sys uq up (currentAcc (g.flag mCurrentA1)) uq up
    (oldAcc (g.flag mCurrentA1)) t dt g (by decide) (n1 _) (by cases g.flag mCurrentA1 <;> decide)
    (by cases g.flag mCurrentA1 <;> decide) (by cases g.flag mCurrentA1 <;> decide) (by decide)
    (by cases g.flag mCurrentA1 <;> decide)).1 _ _ _ _ hr
  refine ⟨h'.putFlag mCurrentA1 (!(g.flag mCurrentA1)), ?_, ?_, ?_⟩
  · have e0 : verletDoStep r sys uq up t dt h =
      ((do if r || (← getFlag mVerletFirst) then verletInitialize sys uq up t :
        StepM ℝ V W Unit) >>= fun _ => do
          let b ← getFlag mCurrentA1
          verletStep sys uq up (currentAcc b) uq up (oldAcc b) t dt
          setFlag mCurrentA1 (!b)) h := by
      unfold verletDoStep
      simp only [M.bind_apply, getFlag]
      split <;> rfl
    rw [e0, M.bind_ok g1, M.bind_apply]
    simp only [getFlag]
    rw [M.bind_ok a1]
    rfl
  · simp only [Heap.putFlag, a2, a3]
  · intro _
    have f1 : (Function.update h'.flag mCurrentA1 (!(g.flag mCurrentA1))) mCurrentA1 = !(g.flag mCurrentA1) := by
      simp
    have f2 : currentAcc (!(g.flag mCurrentA1)) = oldAcc (g.flag mCurrentA1) := by
      cases g.flag mCurrentA1 <;> rfl
    simp only [Heap.putFlag, f1, f2, a4, a2]

theorem verlet_stepFn {sys : Sys2 ℝ V W} {a : V → ℝ → V} (hs : Accelerates sys a) (r : Bool) :
    StepFn (pairStepperObject (K := ℝ) fun q p t dt => verletDoStep r sys q p t dt) (AccCached a) fun z t dt => verletMap a t dt z := by
  intro s x t dt w l hR
  set h := ((s.set (.user 0) x.1).set (.user 1) x.2).withWorld w with hh
  have h0 : h.state uq = x.1 := by simp [hh, Heap.withWorld, Heap.set, uq]
  have h1 : h.state up = x.2 := by simp [hh, Heap.withWorld, Heap.set, up]
  have hc : ∀ b, h.state (currentAcc b) = s.state (currentAcc b) := by
    intro b
    cases b <;> simp [hh, Heap.withWorld, Heap.set, currentAcc, mA1, mA2, Function.update_apply]
  have hR' : AccCached a h (h.state uq, h.state up) t := by
    intro hf
    rw [hc, h0]
    exact hR hf
  obtain ⟨h', e, e1, e2⟩ := verlet_general hs r t dt h hR'
  rw [h0, h1] at e1
  rw [e1] at e2
  refine ⟨h', h'.world, ?_, ?_⟩
  · have e' : verletDoStep r sys (.user 0) (.user 1) t dt h = .ok () h' := e
    have e1' : (h'.state (.user 0), h'.state (.user 1)) = _ := e1
    simp only [pairStepperObject, ← hh, e', e1', verletMap_value]
  · dsimp only
    rw [verletMap_value]
    exact e2

theorem verlet_regular {a : V → ℝ → V} {n : ℕ} (h : GoodRhs (secondOrder a) n) : RegularStep n fun z t dt => verletMap a t dt z := by
  obtain ⟨L, hL⟩ := h.lipschitz
  have g1 : GoodRhs (fun (z : V × V) (_ : ℝ) => ((z.2, 0) : V × V)) n := by
    refine ⟨(contDiff_snd.comp contDiff_fst).prodMk contDiff_const, 1, fun x y t => ?_⟩
    simp [Prod.norm_def]
  have g2 : GoodRhs (fun (z : V × V) (t : ℝ) => ((0, a z.1 t) : V × V)) n := by
    refine ⟨contDiff_const.prodMk (contDiff_snd.comp h.smooth), L, fun x y t => le_trans ?_ (hL x y t)⟩
    simp [secondOrder, Prod.norm_def]
  have := ((regular_substep g2 (1 / 2) 0).then (regular_substep g1 1 0)).then (regular_substep g2 (1 / 2) 1)
  refine (show (fun z t dt => verletMap a t dt z) = _ from ?_) ▸ this
  funext z t dt
  rw [verlet_composition]
  simp [kick, drift, Prod.add_def]

end Verif
