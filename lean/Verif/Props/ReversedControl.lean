import Verif.Props.Reversed
import Verif.Lemmas.BsTryMem

/-! # C95 for the default error checker and step adjuster, and its failure for `bulirsch_stoer` -/

namespace Verif

/-! ## The default control -/

theorem relErrorLoop_neg (a b c e : ℝ) : ∀ es xs ks : List ℝ,
    relErrorLoop (realOps 0) a b c e es xs (ks.map (- ·)) = relErrorLoop (realOps 0) a b c e es xs ks
  | [], _, _ => rfl
  | _ :: _, [], _ => rfl
  | _ :: _, _ :: _, [] => rfl
  | x :: es, y :: xs, z :: ks => by
    simp only [List.map_cons, relErrorLoop]
    rw [relErrorLoop_neg a b c e es xs ks]
    simp [relError, realOps, abs_neg]

theorem minAbs_neg {a m : ℝ} (ha : a ≠ 0) (hm : m ≠ 0) :
    (realOps 0).time.minAbs (-a) (-m) = -(realOps 0).time.minAbs a m ∧ (realOps 0).time.minAbs a m ≠ 0 := by
  have e : (realOps 0).time = TimeArith.exact ℝ 0 := by simp [NumOps.time, TimeArith.exact, realOps, lit]
  rw [e]
  simp only [TimeArith.minAbs, TimeArith.exact, TimeArith.stdMin, TimeArith.stdMax, decide_eq_true_eq]
  rcases lt_trichotomy a 0 with h | h | h
  · have h1 : ¬ 0 < a := by linarith
    have h2 : 0 < -a := by linarith
    rw [if_neg h1, if_pos h2]
    constructor
    · by_cases h3 : a < m
      · rw [if_pos h3, if_pos (by linarith)]
      · rw [if_neg h3, if_neg (by linarith)]
    · split <;> assumption
  · exact absurd h ha
  · have h2 : ¬ 0 < -a := by linarith
    rw [if_pos h, if_neg h2]
    constructor
    · by_cases h3 : m < a
      · rw [if_pos h3, if_pos (by linarith)]
      · rw [if_neg h3, if_neg (by linarith)]
    · split <;> assumption

/-- **C95**: the default error checker, and the default step adjuster with the limits `maxDt` and `-maxDt`, treat forward and backward steps alike. -/
theorem default_control_reversed (τ : Tolerances) (d p q : ℕ) (maxDt : ℝ) : ReversedControl (τ.controlUpTo d p q maxDt) (τ.controlUpTo d p q (-maxDt)) := by
  have hmax : ∀ a b : ℝ, (realOps 0).max a b = max a b := by
    intro a b
    simp only [NumOps.max, realOps, decide_eq_true_eq]
    split
    · rw [max_eq_right (by linarith)]
    · rw [max_eq_left (by linarith)]
  have heq : ∀ a : ℝ, (realOps 0).eq a (lit 0) = decide (a = 0) := by intro a; simp [realOps, lit]
  have hlim : ∀ a : ℝ, a ≠ 0 → (if (!(realOps 0).eq (-maxDt) (lit 0)) = true then (realOps 0).time.minAbs (-a) (-maxDt) else -a) =
      -(if (!(realOps 0).eq maxDt (lit 0)) = true then (realOps 0).time.minAbs a maxDt else a) ∧
      (if (!(realOps 0).eq maxDt (lit 0)) = true then (realOps 0).time.minAbs a maxDt else a) ≠ 0 := by
    intro a ha
    rw [heq, heq]
    by_cases h : maxDt = 0
    · simp [h, ha]
    · have := minAbs_neg ha h
      simp only [neg_eq_zero, h, decide_false, Bool.not_false, if_true]
      exact this
  refine ⟨rfl, rfl, rfl, ?_, ?_, ?_, ?_, ?_⟩
  · intro x k e dt
    simp only [Tolerances.controlUpTo, Tolerances.checker, defaultErrorChecker]
    have e1 : List.ofFn (-k) = (List.ofFn k).map (- ·) := by rw [List.map_ofFn]; rfl
    have e2 : (realOps 0).abs (-dt) = (realOps 0).abs dt := abs_neg dt
    rw [e1, e2, relErrorLoop_neg]
  · intro dt err n hdt
    have hf : (realOps 0).max (lit 9 / lit 10 * (realOps 0).pow err (lit (-1) / lit (n - 1))) (lit 1 / lit 5) ≠ 0 := by
      rw [hmax]
      refine ne_of_gt (lt_of_lt_of_le ?_ (le_max_right _ _))
      simp [lit]
    have := hlim _ (mul_ne_zero hdt hf)
    simp only [Tolerances.controlUpTo, defaultAdjuster, decreaseStep]
    rw [neg_mul]
    exact this
  · intro dt err n hdt
    simp only [Tolerances.controlUpTo, defaultAdjuster, increaseStep]
    split
    · have hp : 0 < (realOps 0).max ((realOps 0).pow (lit 5) (-(lit n))) err := by
        rw [hmax]
        refine lt_of_lt_of_le ?_ (le_max_left _ _)
        exact Real.rpow_pos_of_pos (by simp [lit]) _
      have hf : (lit 9 / lit 10 * (realOps 0).pow ((realOps 0).max ((realOps 0).pow (lit 5) (-(lit n))) err) (lit (-1) / lit n) : ℝ) ≠ 0 := by
        refine ne_of_gt (mul_pos (by simp [lit]) ?_)
        exact Real.rpow_pos_of_pos hp _
      rw [neg_mul]
      exact hlim _ (mul_ne_zero hdt hf)
    · exact ⟨rfl, hdt⟩
  · intro dt hdt
    simp only [Tolerances.controlUpTo, defaultAdjuster, checkStepSizeLimit]
    rw [heq, heq]
    by_cases h : maxDt = 0
    · simp [h]
    · have e : (realOps 0).time = TimeArith.exact ℝ 0 := by simp [NumOps.time, TimeArith.exact, realOps, lit]
      simp only [neg_eq_zero, h, decide_false, Bool.not_false, if_true]
      rw [e]
      simp only [TimeArith.lessEqWithSign, TimeArith.exact, decide_eq_true_eq]
      rcases lt_trichotomy dt 0 with h1 | h1 | h1
      · rw [if_pos (by linarith), if_neg (by linarith), show -dt - -maxDt = maxDt - dt by ring]
      · exact absurd h1 hdt
      · rw [if_neg (by linarith), if_pos h1, show -maxDt - -dt = dt - maxDt by ring]
  · intro dt h
    refine ⟨rfl, fun h0 => ?_⟩
    have h0' : maxDt = 0 := h0
    simp only [Tolerances.controlUpTo, defaultAdjuster, checkStepSizeLimit] at h
    rw [heq] at h
    simp [h0'] at h

/-- **C95**, `controlled_runge_kutta` with the default control: with the limit `maxDt` forward and `-maxDt` backward. -/
theorem default_controlled_rk_reverses {W : Type} {d : ℕ} (τ : Tolerances) (p q : ℕ) (maxDt : ℝ) (s : ErrorStepper ℝ) (hs : s.WellFormed)
    (sys : Sys ℝ (Fin d → ℝ) W) {eps : ℝ} (heps : 0 ≤ eps) :
    ControlledReverses eps (fun _ _ => True) (controlledObject fun x t dt => tryStep1 (τ.controlUpTo d p q maxDt) s.errImpl sys x t dt)
      (controlledObject fun x t dt => tryStep1 (τ.controlUpTo d p q (-maxDt)) s.errImpl (reversedSys sys) x t dt) :=
  controlled_rk_reverses (default_control_reversed τ d p q maxDt) s hs sys heps

/-- Non-vacuity: Cash-Karp with the default control and the limit 2 for the step size, forward in time; -2 backward. -/
example (sys : Sys ℝ (Fin 3 → ℝ) ℕ) :
    ControlledReverses (1 / 1000) (fun _ _ => True) (controlledObject fun x t dt => tryStep1 ((⟨1, 0, 1, 1⟩ : Tolerances).controlUpTo 3 5 4 2) ErrorStepper.cashKarp.errImpl sys x t dt)
      (controlledObject fun x t dt => tryStep1 ((⟨1, 0, 1, 1⟩ : Tolerances).controlUpTo 3 5 4 (-2)) ErrorStepper.cashKarp.errImpl (reversedSys sys) x t dt) :=
  default_controlled_rk_reverses _ 5 4 2 .cashKarp trivial sys (by norm_num)

/-- Non-vacuity: the classical Runge-Kutta method. -/
example (sys : Sys ℝ (Fin 3 → ℝ) ℕ) : BasicReverses 0 (fun _ _ => True) (stepperObject fun x t dt => doStep1 (ExplicitStepper.rk4 : ExplicitStepper ℝ).impl sys x t dt)
    (stepperObject fun x t dt => doStep1 (ExplicitStepper.rk4 : ExplicitStepper ℝ).impl (reversedSys sys) x t dt) :=
  explicit_reverses .rk4 trivial sys le_rfl

/-- Non-vacuity: the reversed system is another one, in general. -/
example : reversedSys (fun (x : ℝ) (t : ℝ) => (pure (x + t) : M ℕ ℝ)) = fun x t => pure (t - x) := by
  funext x t
  show (pure (x + -t) >>= fun k => pure (-k)) = _
  rw [pure_bind]
  congr 1
  ring

/-! ## `bulirsch_stoer` -/

theorem checker_zero {d : ℕ} (τ : Tolerances) (x k : Fin d → ℝ) (dt : ℝ) : ((τ.checker d).error x k 0 dt).2 = 0 := by
  have h : ∀ (a b c e : ℝ) (es xs ks : List ℝ), (∀ v ∈ es, v = 0) → ∀ i : ℝ, 0 ≤ i → normInf (realOps 0) i (relErrorLoop (realOps 0) a b c e es xs ks) = i := by
    intro a b c e es
    induction es with
    | nil => intros; rfl
    | cons v es ih =>
      intro xs ks hv i hi
      cases xs with
      | nil => rfl
      | cons x xs =>
        cases ks with
        | nil => rfl
        | cons k ks =>
          have e0 : relError (realOps 0) a b c e v x k = 0 := by
            rw [hv v (by simp)]
            simp [relError, realOps]
          have e1 : (realOps 0).max i ((realOps 0).abs 0) = i := by
            simp [NumOps.max, realOps, not_lt.2 hi]
          simp only [relErrorLoop, normInf]
          rw [e0, e1]
          exact ih xs ks (fun v hv' => hv v (by simp [hv'])) i hi
  simp only [Tolerances.checker, defaultErrorChecker]
  rw [h _ _ _ _ _ _ _ (by simp [List.mem_ofFn]) _ (by simp [lit])]
  simp [lit]

theorem extrapolated_zero {V : Type} [NormedAddCommGroup V] [NormedSpace ℝ V] (d k : ℕ) (x : V) (t h : ℝ) : extrapolated (fun _ _ => (0 : V)) d k x t h = x := by
  obtain ⟨n, A, c, b, K, h1, h2⟩ := extrapolated_isRk (fun (_ : V) (_ : ℝ) => (0 : V)) d k
  rw [h2, Finset.sum_eq_zero fun i hi => by rw [h1 _ _ _ _ (Finset.mem_range.1 hi), smul_zero], smul_zero, add_zero]

/-- the factor of the step size after the first step of `bulirsch_stoer` without an error -/
noncomputable def bsFirstFactor : ℝ := 1 / bsFacmin (realOps 0) 1

theorem bsFirstFactor_pos : 0 < bsFirstFactor := by
  have := (bsFacmin_bounds (k := 1) le_rfl).1
  unfold bsFirstFactor
  exact div_pos one_pos (by linarith)

/-- the first step with the right hand side zero: the two tables of the step size control are compared the wrong way round if `dt` is negative -/
theorem bsTry1_zero {W : Type} {d : ℕ} (τ : Tolerances) (resized : Bool) (n : ℕ) (t dt dtLast : ℝ) (hdt : dt ≠ 0) (h : Heap ℝ (Fin d → ℝ) W) :
    ∃ s', bsTry1 ⟨realOps 0, τ.checker d, 0⟩ resized (fun _ _ => pure 0) (.user n) t dt ⟨BsCtl.construct dtLast, h⟩ =
      .ok ⟨true, t + dt, if 0 < dt then dt * bsFirstFactor else 2 * (dt * bsFirstFactor)⟩ s' := by
  set P : BsParams ℝ (Fin d → ℝ) := ⟨realOps 0, τ.checker d, 0⟩ with hP
  set sys : Sys ℝ (Fin d → ℝ) W := fun _ _ => pure 0 with hsys
  have hs : Evaluates sys fun _ _ => 0 := fun x t w => ⟨w, rfl⟩
  have hd := hs.defined
  set x := h.state (.user n) with hx
  have e : onHeap (callSys sys (.user n) bsDxdt t) ⟨BsCtl.construct dtLast, h⟩ = .ok () ⟨BsCtl.construct dtLast, h.put bsDxdt 0 h.world⟩ :=
    onHeap_ok (by unfold callSys; rfl)
  set h0 := h.put bsDxdt 0 h.world with hh0
  have hx0 : h0.state (.user n) = x := by rw [hh0, Heap.put_state_apply, if_neg (by simp [bsDxdt])]
  have hd0 : h0.state bsDxdt = 0 := by rw [hh0, Heap.put_state_apply, if_pos rfl]
  have hA : BsApart (.user n) bsDxdt bsXnew := ⟨by simp [Loc.ownedBy], by simp [bsDxdt, Loc.ownedBy], by simp [bsXnew, Loc.ownedBy],
    by simp [bsXnew], by simp [bsDxdt, bsXnew], by simp [bsErr], by simp [bsDxdt, bsErr], by simp [bsXnew, bsErr]⟩
  have hD : ∀ k w, midpointStep (interval k) sys (h0.state (.user n)) (h0.state bsDxdt) t dt w = .div → False := by
    intro k w h
    rw [hx0, hd0] at h
    obtain ⟨w', e⟩ := midpointStep_value hs (interval k) (by unfold interval; omega) x t dt w
    rw [e] at h
    cases h
  have hT : ∀ c e s, ¬ BsThrown sys (.user n) bsDxdt bsXnew t dt h0 c e s := by
    rintro c e s ⟨-, -, k, h3⟩
    rw [hx0, hd0] at h3
    obtain ⟨ys, w', e', -⟩ := extrapolationResults_value hs k x t dt h0.world
    unfold extrapolationStep at h3
    rw [M.bind_ok e'] at h3
    cases h3
  obtain ⟨dl, hc⟩ : ∃ dl, bsPrepare P resized dt (BsCtl.construct dtLast) = ⟨4, true, false, dl⟩ := by
    unfold bsPrepare
    split <;> exact ⟨_, rfl⟩
  set c : BsCtl ℝ := ⟨4, true, false, dl⟩ with hcdef
  have k0 := bsStage0_sat_of sys t dt h0 c hA hd hD ⟨c, h0⟩ rfl rfl
  obtain ⟨s1, e1, hI⟩ : ∃ s1, onHeap (midpointImpl (interval 0) sys (.user n) bsDxdt t bsXnew dt) ⟨c, h0⟩ = .ok () s1 ∧
      BsInv sys (.user n) bsDxdt bsXnew t dt h0 c 1 s1 := by
    cases hr : onHeap (midpointImpl (interval 0) sys (.user n) bsDxdt t bsXnew dt) ⟨c, h0⟩ with
    | ok a s => rw [hr] at k0; exact ⟨s, rfl, k0⟩
    | err a s => rw [hr] at k0; exact (hT _ _ _ k0).elim
    | ub => rw [hr] at k0; exact k0.elim
    | div => rw [hr] at k0; exact k0.elim
  have k1 := bsStage_sat_of P sys t dt h0 c hA hd hD 1 le_rfl (by norm_num) s1 hI
  obtain ⟨s2, e2⟩ : ∃ s2, bsStage P sys (.user n) bsDxdt t bsXnew dt 1 s1 = .ok 0 s2 := by
    cases hr : bsStage P sys (.user n) bsDxdt t bsXnew dt 1 s1 with
    | ok a s =>
      rw [hr] at k1
      obtain ⟨-, r, d1, -, d3⟩ := k1
      rw [hx0, hd0] at d1 d3
      obtain ⟨w', e'⟩ := extrapolationErrStep_value hs 1 x t dt h0.world
      rw [e'] at d1
      injection d1 with d1
      subst d1
      have : a = 0 := by
        rw [d3]
        simp only [extrapolated_zero, sub_self]
        exact checker_zero τ _ _ _
      rw [this]
      exact ⟨s, rfl⟩
    | err a s => rw [hr] at k1; exact (hT _ _ _ k1).elim
    | ub => rw [hr] at k1; exact k1.elim
    | div => rw [hr] at k1; exact k1.elim
  have hF := bsFirstFactor_pos
  have hfac : bsFac bsRules (realOps 0) 0 1 = bsFirstFactor := by
    unfold bsFac
    rw [if_pos (by simp [realOps, lit])]
    simp [bsFirstFactor, lit]
  have hloop : bsLoop bsRules P.ops c dt (onHeap (midpointImpl (interval 0) sys (.user n) bsDxdt t bsXnew dt)) (bsStage P sys (.user n) bsDxdt t bsXnew dt)
      6 0 (fun _ => lit 0) (fun _ => lit 0) ⟨c, h0⟩ =
      .ok (some ⟨false, if 0 < dt then dt * bsFirstFactor else 2 * (dt * bsFirstFactor), 2⟩) s2 := by
    unfold bsLoop
    rw [if_pos rfl, M.bind_ok e1]
    unfold bsLoop
    rw [if_neg (by norm_num), M.bind_ok (show (chk (1 < bsSize) : M (BsState ℝ (Fin d → ℝ) W) Unit) s1 = .ok () s1 by simp [chk, bsSize]; rfl), M.bind_ok e2]
    unfold orNext bsDecide orNext bsBefore
    rw [if_pos (Or.inr rfl), if_pos (by simp [hP, realOps, lit])]
    have hcost : (lit ((bsCost (bsRules : BsRules ℝ) 1 : ℕ) : ℤ) : ℝ) = 6 := by simp [bsCost, bsRules, interval, lit]
    have hcost2 : (lit ((bsCost (bsRules : BsRules ℝ) 2 : ℕ) : ℤ) : ℝ) = 12 := by simp [bsCost, bsRules, interval, lit]
    have hch : bsCheaper P.ops (Function.update (fun _ => lit 0) 1 (lit (bsCost (bsRules : BsRules ℝ) 1) / bsCalcHopt bsRules P.ops dt 0 1)) 1 (1 - 1) =
        decide (dt < 0) := by
      unfold bsCheaper bsCalcHopt
      rw [show P.ops = realOps 0 from rfl, hfac, hcost]
      simp only [Function.update_self, Function.update_of_ne (show (0 : ℕ) ≠ 1 by norm_num), realOps, lit, Int.cast_zero, mul_zero]
      rw [decide_eq_decide, div_neg_iff]
      constructor
      · rintro (⟨-, h⟩ | ⟨h, -⟩)
        · by_contra h'; have := mul_nonneg (not_lt.1 h') hF.le; linarith
        · norm_num at h
      · intro h; exact .inl ⟨by norm_num, mul_neg_of_neg_of_pos h hF⟩
    have hchk : ∀ s : BsState ℝ (Fin d → ℝ) W, (chk (1 ≤ 1 ∧ 1 < bsSize) : M (BsState ℝ (Fin d → ℝ) W) Unit) s = .ok () s := by
      intro s; simp [chk, bsSize]; rfl
    have hchk2 : ∀ s : BsState ℝ (Fin d → ℝ) W, (chk (1 + 1 < bsSize) : M (BsState ℝ (Fin d → ℝ) W) Unit) s = .ok () s := by
      intro s; simp [chk, bsSize]; rfl
    simp only [bind_assoc]
    rw [M.bind_ok (hchk s2), hch]
    by_cases hneg : dt < 0
    · rw [if_pos (.inl (by simpa using hneg)), if_neg (by linarith)]
      simp only [bind_assoc]
      rw [M.bind_ok (hchk2 s2)]
      simp only [pure_bind, Function.update_self]
      simp only [bsRules] at hcost hcost2 ⊢
      rw [hcost, hcost2]
      simp only [bsCalcHopt, show P.ops = realOps 0 from rfl]
      simp only [bsRules] at hfac
      rw [hfac]
      show Res.ok (some (BsBreak.mk _ _ _)) _ = _
      congr 3
      ring
    · rw [if_neg (by rintro (h | h) <;> simp [hneg, hcdef] at h), if_pos (lt_of_le_of_ne (not_lt.1 hneg) hdt.symm)]
      simp only [pure_bind, Function.update_self]
      simp only [bsCalcHopt, show P.ops = realOps 0 from rfl]
      rw [hfac]
      rfl
  unfold bsTry1
  rw [M.bind_ok e]
  unfold bsTry2 bsTry4
  rw [if_neg (by simp [bsTooLong, hP, realOps, lit])]
  simp only [bind_assoc]
  rw [M.bind_ok (show (M.get : M (BsState ℝ (Fin d → ℝ) W) _) ⟨BsCtl.construct dtLast, h0⟩ = .ok _ _ from rfl)]
  dsimp only
  rw [hc]
  unfold bsTryBody
  simp only [bind_assoc]
  rw [M.bind_ok (show setCtl c (⟨BsCtl.construct dtLast, h0⟩ : BsState ℝ (Fin d → ℝ) W) = .ok () ⟨c, h0⟩ from rfl)]
  rw [M.bind_ok hloop]
  rw [M.bind_ok (show setCtl _ s2 = .ok () ⟨_, s2.heap⟩ from rfl)]
  have hres : bsResult P c ⟨false, if 0 < dt then dt * bsFirstFactor else 2 * (dt * bsFirstFactor), 2⟩ t dt =
      ⟨true, t + dt, if 0 < dt then dt * bsFirstFactor else 2 * (dt * bsFirstFactor)⟩ := by
    simp [bsResult, bsUpdates, bsNewDt, hP, hcdef, realOps, lit]
  simp only [Option.getD_some, hres, pure_bind, if_true]
  exact ⟨_, rfl⟩

/-- `integrate_adaptive` over one step that is accepted at once -/
theorem integrateAdaptive_one {Q V W : Type} {st : ControlledStepper Q (W × Log V ℝ) V ℝ} {q : Q} {x : V} {t dt dt' : ℝ} {w : W × Log V ℝ} (hdt : dt ≠ 0)
    (h : ∀ l, ∃ q' x' w', st.tryStep q x t dt (w.1, l) = .ok ⟨q', x', t + dt, dt', true⟩ w') :
    ∃ x' w', integrateAdaptiveControlled (TimeArith.exact ℝ 0) st recordObserver q x t (t + dt) dt w = .ok ⟨x', t + dt, dt', 1⟩ w' := by
  have e1 : clipDt (TimeArith.exact ℝ 0) t (t + dt) dt = dt := by
    unfold clipDt
    rw [if_neg]
    simp [TimeArith.lessWithSign, TimeArith.exact]
  obtain ⟨q', x', w1, h1⟩ := h (w.2 ++ [.obs x t])
  have hretry : retryLoop st ⟨q, x, t, clipDt (TimeArith.exact ℝ 0) t (t + dt) dt, 0, true⟩ (w.1, w.2 ++ [.obs x t]) = .ok ⟨q', x', t + dt, dt', 1, true⟩ w1 := by
    rw [e1]
    unfold retryLoop
    have hb : retryBody st ⟨q, x, t, dt, 0, true⟩ (w.1, w.2 ++ [.obs x t]) = .ok ⟨q', x', t + dt, dt', 1, true⟩ w1 := by
      unfold retryBody
      dsimp only
      rw [M.bind_ok h1]
      rfl
    rw [M.bind_ok hb]
    exact whileM_stop rfl
  unfold integrateAdaptiveControlled
  refine ⟨x', (w1.1, w1.2 ++ [.obs x' (t + dt)]), ?_⟩
  rw [M.bind_ok (whileM_step_eval (s' := (⟨q', x', t + dt, dt', 0, true⟩, 1)) (w' := w1) ?_ ?_ (whileM_stop ?_))]
  · rfl
  · simp only [TimeArith.lessWithSign, TimeArith.exact, decide_eq_true_eq]
    split
    · simpa using by assumption
    · rename_i h'
      have : dt < 0 := lt_of_le_of_ne (not_lt.1 h') hdt
      simpa using this
  · rw [M.bind_ok (show recordObserver x t w = .ok () (w.1, w.2 ++ [.obs x t]) from rfl), M.bind_ok hretry]
    rfl
  · simp [TimeArith.lessWithSign, TimeArith.exact]

/-- **C95** fails for `bulirsch_stoer`: with the right hand side zero, the reversed system is the system itself; a new stepper integrates forward over one
step and backward over the mirrored step, and leaves a step size `e` in the first case and `-2e` in the second. -/
theorem bulirsch_stoer_not_reversed {W U U' : Type} {d : ℕ} (resizer : U → Bool × U) (resizer' : U' → Bool × U') (τ : Tolerances) (t dt dtLast dtLast' : ℝ) (hdt : 0 < dt)
    (h h' : Heap ℝ (Fin d → ℝ) W) (u : U) (u' : U') (x : Fin d → ℝ) (w : W × Log (Fin d → ℝ) ℝ) :
    let sys : Sys ℝ (Fin d → ℝ) W := fun _ _ => pure 0
    let st := bsObject resizer fun resized x t dt => bsTry1 ⟨realOps 0, τ.checker d, 0⟩ resized sys x t dt
    let st' := bsObject resizer' fun resized x t dt => bsTry1 ⟨realOps 0, τ.checker d, 0⟩ resized (reversedSys sys) x t dt
    ∃ e, 0 < e ∧
      (∃ y v, integrateAdaptiveControlled (TimeArith.exact ℝ 0) st recordObserver (⟨BsCtl.construct dtLast, h⟩, u) x t (t + dt) dt w = .ok ⟨y, t + dt, e, 1⟩ v) ∧
      (∃ y v, integrateAdaptiveControlled (TimeArith.exact ℝ 0) st' recordObserver (⟨BsCtl.construct dtLast', h'⟩, u') x (-t) (-(t + dt)) (-dt) (mirrorWorld w) =
        .ok ⟨y, -(t + dt), -2 * e, 1⟩ v) := by
  intro sys st st'
  have hsys : reversedSys sys = sys := by
    funext x t
    show (pure 0 >>= fun k => pure (-k)) = _
    rw [pure_bind, neg_zero]
  refine ⟨dt * bsFirstFactor, mul_pos hdt bsFirstFactor_pos, ?_, ?_⟩
  · refine integrateAdaptive_one hdt.ne' fun l => ?_
    obtain ⟨s', e⟩ := bsTry1_zero τ (resizer u).1 0 t dt dtLast hdt.ne' ((h.set (.user 0) x).withWorld w.1)
    refine ⟨(s', (resizer u).2), s'.heap.state (.user 0), (s'.heap.world, l), ?_⟩
    simp only [st, bsObject]
    rw [e, if_pos hdt]
  · have := integrateAdaptive_one (st := st') (q := (⟨BsCtl.construct dtLast', h'⟩, u')) (x := x) (t := -t) (dt := -dt) (dt' := -2 * (dt * bsFirstFactor))
      (w := mirrorWorld w) (by linarith [hdt] : -dt ≠ 0) fun l => by
        obtain ⟨s', e⟩ := bsTry1_zero τ (resizer' u').1 0 (-t) (-dt) dtLast' (by linarith) ((h'.set (.user 0) x).withWorld w.1)
        refine ⟨(s', (resizer' u').2), s'.heap.state (.user 0), (s'.heap.world, l), ?_⟩
        simp only [st', bsObject, hsys, mirrorWorld]
        rw [e, if_neg (by linarith)]
        ring_nf
    rwa [← neg_add] at this

/-- Both steppers were just constructed. -/
def BsBothNew {V W U : Type} (q q' : BsState ℝ V W × U) : Prop := q = q' ∧ ∃ dtLast, q.1.ctl = BsCtl.construct dtLast

/-- In particular, `bulirsch_stoer` does not have the property, not even when new. -/
theorem bulirsch_stoer_not_reverses {W U : Type} [Nonempty W] [Nonempty U] {d : ℕ} (resizer : U → Bool × U) (τ : Tolerances) :
    ∃ sys : Sys ℝ (Fin d → ℝ) W, ¬ ControlledReverses 0 BsBothNew (bsObject resizer fun resized x t dt => bsTry1 ⟨realOps 0, τ.checker d, 0⟩ resized sys x t dt)
      (bsObject resizer fun resized x t dt => bsTry1 ⟨realOps 0, τ.checker d, 0⟩ resized (reversedSys sys) x t dt) := by
  obtain ⟨w⟩ := ‹Nonempty W›
  obtain ⟨u⟩ := ‹Nonempty U›
  refine ⟨fun _ _ => pure 0, fun H => ?_⟩
  have h : Heap ℝ (Fin d → ℝ) W := ⟨fun _ => 0, fun _ => 0, fun _ => false, fun _ => 0, w⟩
  obtain ⟨e, he, ⟨y, v, h1⟩, y', v', h2⟩ := bulirsch_stoer_not_reversed resizer resizer τ 0 1 0 0 one_pos h h u u 0 (w, [])
  have := (H (⟨BsCtl.construct 0, h⟩, u) (⟨BsCtl.construct 0, h⟩, u) 0 0 (0 + 1) 1 0 [] (w, []) ⟨rfl, 0, rfl⟩ one_ne_zero).2.2.1
  rw [h1, h2] at this
  injection this with this
  injection this with _ _ h3
  linarith

end Verif
