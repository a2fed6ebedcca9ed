import Verif.Lemmas.ReliableRun
import Verif.Props.Convergence
import Verif.Props.ControlledRk
import Verif.Props.Order

/-! # C65: the integrate functions with a controlled Runge-Kutta stepper, end to end -/

set_option linter.unusedSectionVars false

namespace Verif
open Finset BSeries

variable {W : Type} {d : ℕ}

theorem stageFn_isRkErr {V : Type} [NormedAddCommGroup V] [NormedSpace ℝ V] (T : Tableau ℝ) (b2 : List ℝ) (f : V → ℝ → V) :
    IsRkErr f (fun x t h => T.result x h (T.stageFn f x t h)) fun x t h => T.errorEstimate b2 h (T.stageFn f x t h) :=
  ⟨T.size, T.aij, T.ci, T.bi, fun i => b2.getD i 0, fun x t h => T.stageFn f x t h, fun x t h i hi => T.stageFn_isStages f x t h i hi,
    fun _ _ _ => rfl, fun _ _ _ => rfl⟩

/-- What a step of each error stepper computes. -/
theorem errRecipe_regular {V : Type} [NormedAddCommGroup V] [NormedSpace ℝ V] [CompleteSpace V] (s : ErrorStepper ℝ) {p : ℕ}
    (hp : s.toExplicit.order = some p) {sys : Sys ℝ V W} {f : V → ℝ → V} (hs : Evaluates sys f) :
    ∃ Φ E : V → ℝ → ℝ → V, (∀ x t h w, ∃ w', s.errRecipe sys x (f x t) t h w = .ok (Φ x t h, E x t h) w') ∧ IsRkErr f Φ E ∧
      ∀ x t φ, SmoothAt f p x t → IsSolution f x t φ → LocalOrder p (Φ x t) t φ := by
  have key : ∀ (T : Tableau ℝ) (b2 : List ℝ) (p' : ℕ), T.WellFormed → 1 ≤ p' → p' = p → (∀ i, i < T.size → T.ci i = ∑ j ∈ range i, T.aij i j) →
      b2.length = T.size → OrderConditions T.aij T.bi T.size p' →
      ∃ Φ E : V → ℝ → ℝ → V, (∀ x t h w, ∃ w', rkErrStep T b2 sys x (f x t) t h w = .ok (Φ x t h, E x t h) w') ∧ IsRkErr f Φ E ∧
        ∀ x t φ, SmoothAt f p x t → IsSolution f x t φ → LocalOrder p (Φ x t) t φ := by
    rintro T b2 p' hT hp1 rfl hc hb2 hb
    exact ⟨fun x t h => T.result x h (T.stageFn f x t h), fun x t h => T.errorEstimate b2 h (T.stageFn f x t h),
      fun x t h w => rkErrStep_value hs T hT b2 hb2 x t h w, stageFn_isRkErr T b2 f,
      fun x t φ hf hφ => rk_order hc hp1 hb hf hφ.start hφ.deriv (k := fun i h => T.stageFn f x t h i) fun h => T.stageFn_isStages f x t h⟩
  cases s with
  | generic T b2 => cases hp
  | cashKarp => exact key _ cashKarpDb 5 cashKarpTableau_wf (by norm_num) (Option.some.inj hp) cashKarp_nodes rfl cashKarp_conditions
  | cashKarpClassic =>
    simp only [ErrorStepper.errRecipe, ← cashKarp_errRecipe_eq]
    exact key _ cashKarpDb 5 cashKarpTableau_wf (by norm_num) (Option.some.inj hp) cashKarp_nodes rfl cashKarp_conditions
  | fehlberg => exact key _ fehlbergDb 8 fehlbergTableau_wf (by norm_num) (Option.some.inj hp) fehlberg_nodes rfl fehlberg_conditions

theorem upTo_decrease (τ : Tolerances) (p q : ℕ) (maxDt dt e : ℝ) :
    (τ.controlUpTo d p q maxDt).adjuster.decreaseStep dt e (τ.controlUpTo d p q maxDt).errorOrder = limitStep maxDt (dt * decFactor e q) :=
  decrease_step_formula maxDt dt e q

theorem upTo_increase (τ : Tolerances) (p q : ℕ) (maxDt dt e : ℝ) :
    (τ.controlUpTo d p q maxDt).adjuster.increaseStep dt e (τ.controlUpTo d p q maxDt).stepperOrder =
      if e < 1 / 2 then limitStep maxDt (dt * incFactor e p) else dt :=
  increase_step_formula maxDt dt e p

/-- a try of the controlled stepper -/
theorem tryVal_of_contract {impl : ErrStepImpl ℝ (Fin d → ℝ) W} {recipe : Recipe ℝ (Fin d → ℝ) W ((Fin d → ℝ) × (Fin d → ℝ))} {os : List Owner}
    {p q : ℕ} {sys : Sys ℝ (Fin d → ℝ) W} {f : (Fin d → ℝ) → ℝ → Fin d → ℝ} (hs : Evaluates sys f) {Φ E : (Fin d → ℝ) → ℝ → ℝ → Fin d → ℝ}
    (hΦ : ∀ x t h w, ∃ w', recipe sys x (f x t) t h w = .ok (Φ x t h, E x t h) w') (τ : Tolerances) (maxDt : ℝ)
    (hcon : ∀ t dt (h : Heap ℝ (Fin d → ℝ) W), Computes os h (tryStep1 (τ.controlUpTo d p q maxDt) impl sys (.user 0) t dt)
      (do let k ← sys (h.state (.user 0)) t
          trial (τ.controlUpTo d p q maxDt) recipe sys (h.state (.user 0)) k t dt) (Trial.out t dt) (Trial.inPlace (.user 0)) []) :
    TryVal p q f τ maxDt (controlledObject (K := ℝ) fun l t dt => tryStep1 (τ.controlUpTo d p q maxDt) impl sys l t dt) (fun _ _ _ => True) Φ E := by
  intro o x t dt w l _
  set h0 := (o.set (.user 0) x).withWorld w with hh0
  have hx : h0.state (.user 0) = x := by simp [hh0, Heap.withWorld, Heap.set]
  set e := ((τ.checker d).error x (f x t) (E x t dt) dt).2 with he
  obtain ⟨w1, e1⟩ := hs.bind x t h0.world fun k => trial (τ.controlUpTo d p q maxDt) recipe sys x k t dt
  obtain ⟨w2, e2⟩ := hΦ x t dt w1
  have H := hcon t dt h0
  unfold Computes at H
  rw [hx, e1] at H
  unfold trial at H
  cases hck : (τ.controlUpTo d p q maxDt).adjuster.checkStepSizeLimit dt with
  | false =>
    rw [if_pos hck] at H
    obtain ⟨h', r1, r2, r3⟩ := H
    refine ⟨h', h'.world, .inl ⟨rfl, ?_, trivial⟩⟩
    have hx' : h'.state (.user 0) = x := by rw [(r3 _ (ownedBy_user _ _)).1]; simpa [Trial.inPlace, Heap.setAll] using hx
    simp only [controlledObject, ← hh0, r1, hx', Trial.out]
    rfl
  | true =>
  rw [if_neg (by rw [hck]; simp), M.bind_ok e2] at H
  dsimp only at H
  have hc : ((τ.controlUpTo d p q maxDt).checker.error x (f x t) (E x t dt) dt).2 = e := rfl
  rw [hc, upTo_decrease, upTo_increase] at H
  by_cases h1 : 1 < e
  · rw [if_pos (show (τ.controlUpTo d p q maxDt).gtOne e = true from decide_eq_true h1)] at H
    obtain ⟨h', r1, r2, r3⟩ := H
    refine ⟨h', h'.world, .inr (.inl ⟨rfl, h1, ?_, trivial⟩)⟩
    have hx' : h'.state (.user 0) = x := by rw [(r3 _ (ownedBy_user _ _)).1]; simpa [Trial.inPlace, Heap.setAll] using hx
    simp only [controlledObject, ← hh0, r1, hx', Trial.out]
  · rw [if_neg (show ¬ (τ.controlUpTo d p q maxDt).gtOne e = true from by simpa [Tolerances.controlUpTo] using h1)] at H
    obtain ⟨h', r1, r2, r3⟩ := H
    refine ⟨h', h'.world, .inr (.inr ⟨rfl, not_lt.1 h1, ?_, trivial⟩)⟩
    have hx' : h'.state (.user 0) = Φ x t dt := by rw [(r3 _ (ownedBy_user _ _)).1]; simp [Trial.inPlace, Heap.setAll]
    simp only [controlledObject, ← hh0, r1, hx', Trial.out]

theorem explicit_tryVal (s : ErrorStepper ℝ) (hw : s.WellFormed) {p q : ℕ} {sys : Sys ℝ (Fin d → ℝ) W} {f : (Fin d → ℝ) → ℝ → Fin d → ℝ}
    (hs : Evaluates sys f) {Φ E : (Fin d → ℝ) → ℝ → ℝ → Fin d → ℝ}
    (hΦ : ∀ x t h w, ∃ w', s.errRecipe sys x (f x t) t h w = .ok (Φ x t h, E x t h) w') (τ : Tolerances) (maxDt : ℝ) :
    TryVal p q f τ maxDt (controlledObject (K := ℝ) fun l t dt => tryStep1 (τ.controlUpTo d p q maxDt) s.errImpl sys l t dt) (fun _ _ _ => True) Φ E :=
  tryVal_of_contract hs hΦ τ maxDt fun t dt h => try_step_contract (τ.controlUpTo d p q maxDt) s hw sys 0 t dt h

/-- **C65**: the integrate functions with `controlled_runge_kutta` around any of the (non-FSAL) error steppers of order `p`, with the default error
checker and step adjuster, for a smooth and Lipschitz continuous right hand side. -/
theorem controlled_steppers_integrate (s : ErrorStepper ℝ) {p q : ℕ} (hp : s.toExplicit.order = some p) (hq : s.errorOrder = some q)
    {sys : Sys ℝ (Fin d → ℝ) W} {f : (Fin d → ℝ) → ℝ → Fin d → ℝ} (hs : Evaluates sys f) (hf : GoodRhs f (p + 1)) {φ : ℝ → Fin d → ℝ}
    (hφ : IsFlowLine f φ) :
    IntegratesReliably p f (fun x t h r => ∀ w, ∃ w', s.errRecipe sys x (f x t) t h w = .ok r w')
      (fun τ maxDt => controlledObject (K := ℝ) fun l t dt => tryStep1 (τ.controlUpTo d p q maxDt) s.errImpl sys l t dt) (fun _ => True) φ := by
  obtain ⟨Φ, E, h1, h2, h3⟩ := errRecipe_regular s hp hs
  have hw : s.WellFormed := by cases s <;> trivial
  have hpq : 1 ≤ p ∧ 2 ≤ q := by
    cases s with
    | generic T b2 => cases hp
    | cashKarp => cases hp; cases hq; omega
    | cashKarpClassic => cases hp; cases hq; omega
    | fehlberg => cases hp; cases hq; omega
  exact reliable_of_tryVal hpq.1 hpq.2 hf hφ (fun τ maxDt _ => explicit_tryVal s hw hs h1 τ maxDt) (h2.isRk.regular hf) (h2.growth hf)
    (fun t => h3 _ _ _ (hf.smoothAt (by omega) _ _) (hφ.isSolution t)) (fun x t h w => h1 x t h w) fun _ _ _ _ => trivial

/-- a try of the controlled `runge_kutta_dopri5` -/
theorem dopri5_tryVal {p q : ℕ} {sys : Sys ℝ (Fin d → ℝ) W} {f : (Fin d → ℝ) → ℝ → Fin d → ℝ} (hs : Evaluates sys f) (resized : Bool)
    (τ : Tolerances) (maxDt : ℝ) :
    TryVal p q f τ maxDt (controlledObject (K := ℝ) fun l t dt => fsalTry1 (τ.controlUpTo d p q maxDt) dopri5ErrImpl resized sys l t dt)
      (fun o x t => o.flag mCtrlFirst = true ∨ o.state mCtrlDxdt = f x t)
      (fun x t h => (dopri5Fun f x (f x t) t h).x) fun x t h => dopri5Error (f x t) h (dopri5Fun f x (f x t) t h) := by
  intro o x t dt w l hr
  set h0 := (o.set (.user 0) x).withWorld w with hh0
  have hx : h0.state (.user 0) = x := by simp [hh0, Heap.withWorld, Heap.set]
  have hd : h0.state mCtrlDxdt = o.state mCtrlDxdt := by simp [hh0, Heap.withWorld, Heap.set, mCtrlDxdt]
  have hfl : h0.flag mCtrlFirst = o.flag mCtrlFirst := rfl
  set e := ((τ.checker d).error x (f x t) (dopri5Error (f x t) dt (dopri5Fun f x (f x t) t dt)) dt).2 with he
  -- the derivative the step starts from
  obtain ⟨h1, e1, a1, a2⟩ : ∃ h1, fsalTry1 (τ.controlUpTo d p q maxDt) dopri5ErrImpl resized sys (.user 0) t dt h0 =
      fsalTry3 (τ.controlUpTo d p q maxDt) dopri5ErrImpl sys (.user 0) mCtrlDxdt t dt h1 ∧ h1.state mCtrlDxdt = f x t ∧ h1.state (.user 0) = x := by
    unfold fsalTry1
    by_cases hc : (resized || o.flag mCtrlFirst) = true
    · obtain ⟨w', e⟩ := hs x t h0.world
      refine ⟨(h0.put mCtrlDxdt (f x t) w').putFlag mCtrlFirst false, ?_, ?_, ?_⟩
      · rw [M.bind_ok (m := getFlag mCtrlFirst) (w' := h0) (a := h0.flag mCtrlFirst) rfl, hfl, if_pos hc]
        refine M.bind_ok (a := ()) ?_ _
        unfold fsalCtrlInitialize
        rw [M.bind_ok (m := callSys sys (.user 0) mCtrlDxdt t) (w' := h0.put mCtrlDxdt (f x t) w') (a := ())]
        · rfl
        · unfold callSys
          rw [hx, e]
      · simp [Heap.putFlag, Heap.put]
      · simpa [Heap.putFlag, Heap.put, mCtrlDxdt] using hx
    · refine ⟨h0, ?_, ?_, hx⟩
      · rw [M.bind_ok (m := getFlag mCtrlFirst) (w' := h0) (a := h0.flag mCtrlFirst) rfl, hfl, if_neg hc]
      · simp only [Bool.or_eq_true, not_or, Bool.not_eq_true] at hc
        rcases hr with hr | hr
        · rw [hc.2] at hr; cases hr
        · rw [hd, hr]
  obtain ⟨w2, e2⟩ := dopri5Step_value hs x (f x t) t dt h1.world
  have H := fsalTry3_computes (τ.controlUpTo d p q maxDt) dopri5ErrImpl dopri5ErrStep sys (.user 0) mCtrlDxdt t dt h1 (ownedBy_user _ _)
    (by simp [mCtrlDxdt, Loc.ownedBy])
    (fsalErr_val sys _ _ _ _ t dt h1 (ownedBy_user _ _) (by simp [mCtrlDxdt, Loc.ownedBy]) (by simp [mXnew, Loc.ownedBy])
      (by simp [mDxdtNew, Loc.ownedBy]) (by simp [mXnew, mDxdtNew]) (by simp [mXnew, mCtrlDxdt]))
  unfold Computes at H
  rw [a1, a2] at H
  unfold fsalTrial at H
  have e3 : dopri5ErrStep sys x (f x t) t dt h1.world =
      .ok (((dopri5Fun f x (f x t) t dt).x, (dopri5Fun f x (f x t) t dt).k7), dopri5Error (f x t) dt (dopri5Fun f x (f x t) t dt)) w2 := by
    unfold dopri5ErrStep
    rw [M.bind_ok e2]
    rfl
  cases hck : (τ.controlUpTo d p q maxDt).adjuster.checkStepSizeLimit dt with
  | false =>
    rw [if_pos hck] at H
    obtain ⟨h', r1, r2, r3⟩ := H
    have hx' : h'.state (.user 0) = x := by rw [(r3 _ (ownedBy_user _ _)).1]; simpa [Trial.inPlaceFsal, Heap.setAll] using a2
    have hd' : h'.state mCtrlDxdt = f x t := by
      rw [(r3 _ (by simp [mCtrlDxdt, Loc.ownedBy])).1]; simpa [Trial.inPlaceFsal, Heap.setAll] using a1
    refine ⟨h', h'.world, .inl ⟨rfl, ?_, .inr hd'⟩⟩
    simp only [controlledObject, ← hh0, e1, r1, hx', Trial.out]
    rfl
  | true =>
  rw [if_neg (by rw [hck]; simp), M.bind_ok e3] at H
  dsimp only at H
  have hc : ((τ.controlUpTo d p q maxDt).checker.error x (f x t) (dopri5Error (f x t) dt (dopri5Fun f x (f x t) t dt)) dt).2 = e := rfl
  rw [hc, upTo_decrease, upTo_increase] at H
  by_cases hgt : 1 < e
  · rw [if_pos (show (τ.controlUpTo d p q maxDt).gtOne e = true from decide_eq_true hgt)] at H
    obtain ⟨h', r1, r2, r3⟩ := H
    have hx' : h'.state (.user 0) = x := by rw [(r3 _ (ownedBy_user _ _)).1]; simpa [Trial.inPlaceFsal, Heap.setAll] using a2
    have hd' : h'.state mCtrlDxdt = f x t := by
      rw [(r3 _ (by simp [mCtrlDxdt, Loc.ownedBy])).1]; simpa [Trial.inPlaceFsal, Heap.setAll] using a1
    refine ⟨h', h'.world, .inr (.inl ⟨rfl, hgt, ?_, .inr hd'⟩)⟩
    simp only [controlledObject, ← hh0, e1, r1, hx', Trial.out]
  · rw [if_neg (show ¬ (τ.controlUpTo d p q maxDt).gtOne e = true from by simpa [Tolerances.controlUpTo] using hgt)] at H
    obtain ⟨h', r1, r2, r3⟩ := H
    have hx' : h'.state (.user 0) = (dopri5Fun f x (f x t) t dt).x := by
      rw [(r3 _ (ownedBy_user _ _)).1]; simp [Trial.inPlaceFsal, Heap.setAll, Heap.set_state_apply, mCtrlDxdt]
    have hd' : h'.state mCtrlDxdt = f (dopri5Fun f x (f x t) t dt).x (t + dt) := by
      rw [(r3 _ (by simp [mCtrlDxdt, Loc.ownedBy])).1]; simp [Trial.inPlaceFsal, Heap.setAll]; rfl
    refine ⟨h', h'.world, .inr (.inr ⟨rfl, not_lt.1 hgt, ?_, .inr hd'⟩)⟩
    simp only [controlledObject, ← hh0, e1, r1, hx', Trial.out]

/-- **C65** for `controlled_runge_kutta< runge_kutta_dopri5 >`, with a stepper that has not been used or has been reset. -/
theorem controlled_dopri5_integrates {sys : Sys ℝ (Fin d → ℝ) W} {f : (Fin d → ℝ) → ℝ → Fin d → ℝ} (hs : Evaluates sys f) (hf : GoodRhs f 6)
    {φ : ℝ → Fin d → ℝ} (hφ : IsFlowLine f φ) (resized : Bool) :
    IntegratesReliably 5 f (fun x t h r => ∀ w, ∃ k' w', dopri5ErrStep sys x (f x t) t h w = .ok ((r.1, k'), r.2) w')
      (fun τ maxDt => controlledObject (K := ℝ) fun l t dt => fsalTry1 (τ.controlUpTo d 5 4 maxDt) dopri5ErrImpl resized sys l t dt)
      (fun o => o.flag mCtrlFirst = true) φ := by
  have hΦ : IsRkErr f (fun x t h => (dopri5Fun f x (f x t) t h).x) (fun x t h => dopri5Error (f x t) h (dopri5Fun f x (f x t) t h)) := by
    have := stageFn_isRkErr dopri5Tableau dopri5Db f
    simp only [dopri5_errorEstimate]
    simpa only [dopri5Fun_stages] using this
  refine reliable_of_tryVal (p := 5) (q := 4) (by norm_num) (by norm_num) hf hφ (fun τ maxDt _ => dopri5_tryVal hs resized τ maxDt)
    (hΦ.isRk.regular hf) (hΦ.growth hf) (fun t => dopri5_order_value (hf.smoothAt (by omega) _ _) (hφ.isSolution t)) (fun x t h w => ?_) fun o x t ho => .inl ho
  obtain ⟨w', e⟩ := dopri5Step_value hs x (f x t) t h w
  refine ⟨(dopri5Fun f x (f x t) t h).k7, w', ?_⟩
  unfold dopri5ErrStep
  rw [M.bind_ok e]
  rfl

end Verif
