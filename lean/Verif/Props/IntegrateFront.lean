import Verif.Spec.FrontEnd
import Verif.Props.ControlledRunWitness
import Verif.Props.ErrorChecker
import Verif.Props.DenseRun

/-! # C68: `integrate`, `make_controlled` and `make_dense_output` -/

namespace Verif
variable {W : Type} {d : ℕ}

/-- the error test of the default error checker -/
theorem checker_le_one_iff {τ : Tolerances} (hτ : τ.Valid) (x k e : Fin d → ℝ) (dt : ℝ) :
    ((τ.checker d).error x k e dt).2 ≤ 1 ↔ ∀ i, |e i| ≤ τ.absolute + τ.relative * (τ.aX * |x i| + τ.aDxdt * |dt| * |k i|) := by
  have h := error_checker_le_one (eps := 0) τ.absolute τ.relative τ.aX τ.aDxdt dt hτ.absolute hτ.relative hτ.aX hτ.aDxdt
    (List.ofFn fun i => (⟨e i, x i, k i⟩ : Component))
  have e1 : ((τ.checker d).error x k e dt).2 = checkerValue 0 τ.absolute τ.relative τ.aX τ.aDxdt dt
      (List.ofFn fun i => (⟨e i, x i, k i⟩ : Component)) := by
    unfold checkerValue Tolerances.checker
    simp only [List.map_ofFn]
    rfl
  rw [e1, h]
  constructor
  · intro h i
    exact h _ (List.mem_ofFn.2 ⟨i, rfl⟩)
  · intro h c hc
    obtain ⟨i, rfl⟩ := List.mem_ofFn.1 hc
    exact h i

theorem preciseStep_of {a r m : ℝ} (ha : 0 < a) (hr : 0 ≤ r) {f : (Fin d → ℝ) → ℝ → Fin d → ℝ}
    {yields : (Fin d → ℝ) → ℝ → ℝ → (Fin d → ℝ) × (Fin d → ℝ) → Prop} {u v : (Fin d → ℝ) × ℝ} (hm : m = 1)
    (h : WithinTolerance ⟨a, r, m, m⟩ f yields u v) : PreciseStep a r f yields u v := by
  subst hm
  obtain ⟨e, h1, h2⟩ := h
  refine ⟨e, h1, fun i => ?_⟩
  have := (checker_le_one_iff ⟨ha, hr, zero_le_one, zero_le_one⟩ _ _ _ _).1 h2 i
  simp only [one_mul] at this
  rwa [abs_mul]

/-- the part of C65 about `integrate_adaptive`, for steppers made with `absError`, `relError` and `maxDt` -/
theorem runsReliably_of {Q : Type} {p : ℕ} {f : (Fin d → ℝ) → ℝ → Fin d → ℝ} {yields : (Fin d → ℝ) → ℝ → ℝ → (Fin d → ℝ) × (Fin d → ℝ) → Prop}
    {st : Tolerances → ℝ → ControlledStepper Q (W × Log (Fin d → ℝ) ℝ) (Fin d → ℝ) ℝ} {fresh : Q → Prop} {φ : ℝ → Fin d → ℝ}
    (h : IntegratesReliably p f yields st fresh φ) (a b ρ : ℝ) :
    ∃ C, ∀ (absError relError : ℝ) (maxDt : Option ℝ) (eps t0 t1 dt : ℝ) (x0 : Fin d → ℝ) (q : Q) (w : W) (l : Log (Fin d → ℝ) ℝ),
      0 < absError → 0 ≤ relError → (∀ m ∈ maxDt, SameDir dt m) → fresh q → 0 ≤ eps → eps ≤ 1 → ‖x0‖ ≤ ρ → t0 ∈ Set.Icc a b → t1 ∈ Set.Icc a b →
      dt ≠ 0 → ¬ Beyond eps dt t0 t1 →
      RunsReliably p f yields φ C absError relError maxDt eps t0 t1 dt x0 l (integrateAdaptiveControlled (TimeArith.exact ℝ eps)
        (st ⟨absError, relError, 1, 1⟩ (maxDt.getD 0)) recordObserver q x0 t0 t1 dt (w, l)) := by
  obtain ⟨C, hC⟩ := h a b ρ
  refine ⟨C, fun absError relError maxDt eps t0 t1 dt x0 q w l ha hr hm hq he0 he1 hx ht0 ht1 hdt hb => ?_⟩
  obtain ⟨h1, -⟩ := hC ⟨absError, relError, 1, 1⟩ (maxDt.getD 0) t0 dt x0 q w l ⟨ha, hr, zero_le_one, zero_le_one⟩ hq hx ht0 hdt (by
    cases maxDt with
    | none => exact .inl rfl
    | some m => exact .inr (hm m rfl))
  have hrun : ∀ l' : Log (Fin d → ℝ) ℝ, l'.observations.IsChain (fun u v => SameDir dt (v.2 - u.2) ∧
      (maxDt.getD 0 ≠ 0 → |v.2 - u.2| ≤ |maxDt.getD 0|) ∧ WithinTolerance ⟨absError, relError, 1, 1⟩ f yields u v) →
      l'.observations.IsChain (fun u v => SameDir dt (v.2 - u.2) ∧ (∀ m ∈ maxDt, |v.2 - u.2| ≤ |m|) ∧ PreciseStep absError relError f yields u v) := by
    intro l' h
    refine h.imp fun u v ⟨h1, h2, h3⟩ => ⟨h1, fun m hm' => ?_, preciseStep_of ha hr rfl h3⟩
    have hm0 := hm m hm'
    cases hm'
    refine h2 ?_
    rintro (rfl : m = 0)
    unfold SameDir at hm0
    rcases hm0 with h | h <;> simp at h
  rcases h1 eps t1 he0 he1 ht1 hb with ⟨r, w', l', e1, ⟨b1, b2, b3⟩, b4, b5, b6⟩ | ⟨w', l', e1, ⟨b1, b2, b3⟩, b4⟩
  · exact .inl ⟨r, w', l', e1, ⟨hrun l' b1, b2, b3⟩, b4, b5, b6⟩
  · exact .inr ⟨w', l', e1, ⟨hrun l' b1, b2, b3⟩, b4⟩

theorem makeControlled_params (absError relError : ℝ) (maxDt : Option ℝ) (d p q : ℕ) :
    (makeControlled absError relError maxDt).params d p q = (⟨absError, relError, 1, 1⟩ : Tolerances).controlUpTo d p q (maxDt.getD 0) := by
  simp [makeControlled, ControlArgs.params, ControlArgs.default, lit]

theorem defaultArgs_params (d p q : ℕ) :
    (ControlArgs.default : ControlArgs ℝ).params d p q = (⟨1 / 10 ^ 6, 1 / 10 ^ 6, 1, 1⟩ : Tolerances).controlUpTo d p q 0 := by
  have : (1 : ℝ) / 10 ^ 6 = 1 / 1000000 := by norm_num
  rw [this]
  simp [ControlArgs.params, ControlArgs.default, lit, frac]

/-- **C68** (`make_controlled( absError , relError [ , maxDt ] , stepper )` and `integrate_adaptive`), for `runge_kutta_cash_karp54`,
`runge_kutta_cash_karp54_classic` and `runge_kutta_fehlberg78`: for every time interval `[a,b]` and bound `ρ` of the start state there is a constant `C`
for all calls. -/
theorem make_controlled_reliable (s : ErrorStepper ℝ) {p q : ℕ} (hp : s.toExplicit.order = some p) (hq : s.errorOrder = some q)
    {sys : Sys ℝ (Fin d → ℝ) W} {f : (Fin d → ℝ) → ℝ → Fin d → ℝ} (hs : Evaluates sys f) (hf : GoodRhs f (p + 1)) {φ : ℝ → Fin d → ℝ}
    (hφ : IsFlowLine f φ) (a b ρ : ℝ) :
    ∃ C, ∀ (absError relError : ℝ) (maxDt : Option ℝ) (eps t0 t1 dt : ℝ) (x0 : Fin d → ℝ) (m : Heap ℝ (Fin d → ℝ) W) (w : W) (l : Log (Fin d → ℝ) ℝ),
      0 < absError → 0 ≤ relError → (∀ m ∈ maxDt, SameDir dt m) → 0 ≤ eps → eps ≤ 1 → ‖x0‖ ≤ ρ → t0 ∈ Set.Icc a b → t1 ∈ Set.Icc a b →
      dt ≠ 0 → ¬ Beyond eps dt t0 t1 →
      RunsReliably p f (fun x t h r => ∀ w, ∃ w', s.errRecipe sys x (f x t) t h w = .ok r w') φ C absError relError maxDt eps t0 t1 dt x0 l
        (integrateAdaptiveControlled (TimeArith.exact ℝ eps)
          (controlledObject fun l t dt => tryStep1 ((makeControlled absError relError maxDt).params d p q) s.errImpl sys l t dt)
          recordObserver m x0 t0 t1 dt (w, l)) := by
  obtain ⟨C, hC⟩ := runsReliably_of (controlled_steppers_integrate s hp hq hs hf hφ) a b ρ
  refine ⟨C, fun absError relError maxDt eps t0 t1 dt x0 m w l ha hr hm => ?_⟩
  rw [makeControlled_params]
  exact hC absError relError maxDt eps t0 t1 dt x0 m w l ha hr hm trivial

/-- **C68** (`make_controlled( absError , relError [ , maxDt ] , runge_kutta_dopri5() )` and `integrate_adaptive`). -/
theorem make_controlled_dopri5_reliable {sys : Sys ℝ (Fin d → ℝ) W} {f : (Fin d → ℝ) → ℝ → Fin d → ℝ} (hs : Evaluates sys f) (hf : GoodRhs f 6)
    {φ : ℝ → Fin d → ℝ} (hφ : IsFlowLine f φ) (resized : Bool) (a b ρ : ℝ) :
    ∃ C, ∀ (absError relError : ℝ) (maxDt : Option ℝ) (eps t0 t1 dt : ℝ) (x0 : Fin d → ℝ) (m : Heap ℝ (Fin d → ℝ) W) (w : W) (l : Log (Fin d → ℝ) ℝ),
      0 < absError → 0 ≤ relError → (∀ m ∈ maxDt, SameDir dt m) → 0 ≤ eps → eps ≤ 1 → ‖x0‖ ≤ ρ → t0 ∈ Set.Icc a b → t1 ∈ Set.Icc a b →
      dt ≠ 0 → ¬ Beyond eps dt t0 t1 →
      RunsReliably 5 f (fun x t h r => ∀ w, ∃ k' w', dopri5ErrStep sys x (f x t) t h w = .ok ((r.1, k'), r.2) w') φ C absError relError maxDt
        eps t0 t1 dt x0 l
        (integrateAdaptiveControlled (TimeArith.exact ℝ eps)
          (controlledObject fun l t dt => fsalTry1 ((makeControlled absError relError maxDt).params d 5 4) dopri5ErrImpl resized sys l t dt)
          recordObserver (newFsalController m) x0 t0 t1 dt (w, l)) := by
  obtain ⟨C, hC⟩ := runsReliably_of (controlled_dopri5_integrates hs hf hφ resized) a b ρ
  refine ⟨C, fun absError relError maxDt eps t0 t1 dt x0 m w l ha hr hm => ?_⟩
  rw [makeControlled_params]
  exact hC absError relError maxDt eps t0 t1 dt x0 (newFsalController m) w l ha hr hm (by simp [newFsalController])

/-- **C68** (`integrate`): the tolerances are `1e-6`, there is no limit for the step size, and the stepper is `runge_kutta_dopri5`. -/
theorem integrate_reliable {sys : Sys ℝ (Fin d → ℝ) W} {f : (Fin d → ℝ) → ℝ → Fin d → ℝ} (hs : Evaluates sys f) (hf : GoodRhs f 6)
    {φ : ℝ → Fin d → ℝ} (hφ : IsFlowLine f φ) (resized : Bool) (a b ρ : ℝ) :
    ∃ C, ∀ (eps t0 t1 dt : ℝ) (x0 : Fin d → ℝ) (m : Heap ℝ (Fin d → ℝ) W) (w : W) (l : Log (Fin d → ℝ) ℝ),
      0 ≤ eps → eps ≤ 1 → ‖x0‖ ≤ ρ → t0 ∈ Set.Icc a b → t1 ∈ Set.Icc a b → dt ≠ 0 → ¬ Beyond eps dt t0 t1 →
      RunsReliably 5 f (fun x t h r => ∀ w, ∃ k' w', dopri5ErrStep sys x (f x t) t h w = .ok ((r.1, k'), r.2) w') φ C (1 / 10 ^ 6) (1 / 10 ^ 6) none
        eps t0 t1 dt x0 l (integrate (TimeArith.exact ℝ eps) resized m sys recordObserver x0 t0 t1 dt (w, l)) := by
  obtain ⟨C, hC⟩ := runsReliably_of (controlled_dopri5_integrates hs hf hφ resized) a b ρ
  refine ⟨C, fun eps t0 t1 dt x0 m w l => ?_⟩
  unfold integrate
  rw [defaultArgs_params]
  exact hC (1 / 10 ^ 6) (1 / 10 ^ 6) none eps t0 t1 dt x0 (newFsalController m) w l (by positivity) (by positivity) (fun _ h => by cases h)
    (by simp [newFsalController])

/-- **C68** (`make_dense_output( absError , relError [ , maxDt ] , runge_kutta_dopri5() )` and `integrate_times`): the requested times are observed
in order, the last state is returned, and if `H` bounds the steps, all observed states differ from the solution by at most
`C * ( |x0 - φ t0| + H^5 )`; an exception is thrown only if `absError < C * 0.9^498`. -/
theorem make_dense_output_times_reliable {sys : Sys ℝ (Fin d → ℝ) W} {f : (Fin d → ℝ) → ℝ → Fin d → ℝ} (hs : Evaluates sys f) (hf : GoodRhs f 6)
    {φ : ℝ → Fin d → ℝ} (hφ : IsFlowLine f φ) (a b ρ : ℝ) :
    ∃ C, ∀ (absError relError : ℝ) (maxDt : Option ℝ) (H t0 dt : ℝ) (times : List ℝ) (x0 : Fin d → ℝ) (m : Heap ℝ (Fin d → ℝ) W) (w : W)
      (l : Log (Fin d → ℝ) ℝ),
      0 < absError → 0 ≤ relError → ‖x0‖ ≤ ρ → t0 ∈ Set.Icc a b → (∀ s ∈ times, s ∈ Set.Icc a b) → dt ≠ 0 → MonotoneTimes dt (t0 :: times) →
      t0 ∉ times → StepLimit dt (maxDt.getD 0) H t0 (times.getLastD t0) →
      let run := integrateTimesDense (TimeArith.exact ℝ 0) (denseObject ((makeControlled absError relError maxDt).params d 5 4) sys) recordObserver m
        x0 (t0 :: times) dt (w, l)
      (∃ x n w' l', run = .ok (x, n) (w', l ++ l') ∧ l'.observations.map Prod.snd = t0 :: times ∧ l'.observations.head? = some (x0, t0) ∧
        l'.observations.getLast?.map Prod.fst = some x ∧ CloseTo φ (C * (‖x0 - φ t0‖ + H ^ 5)) l') ∨
      (∃ w' l', run = .err .stepAdjustment (w', l ++ l') ∧ l'.observations.map Prod.snd <+: t0 :: times ∧
        CloseTo φ (C * (‖x0 - φ t0‖ + H ^ 5)) l' ∧ absError < C * (9 / 10) ^ 498) := by
  obtain ⟨C, hC⟩ := dense_dopri5_integrates hs hf hφ a b ρ
  refine ⟨C, fun absError relError maxDt H t0 dt times x0 m w l ha hr hx ht0 hts hdt hmono hnot hlim => ?_⟩
  rw [makeControlled_params]
  obtain ⟨-, h⟩ := hC ⟨absError, relError, 1, 1⟩ (maxDt.getD 0) H t0 dt x0 m w l ⟨ha, hr, zero_le_one, zero_le_one⟩ hx ht0 hdt
  rcases h times hts hmono hnot hlim with ⟨x, n, w', l', e, h1, h2, h3, h4⟩ | ⟨w', l', e, h1, h2, h3, h4⟩
  · exact .inl ⟨x, n, w', l', e, h1, h2, h4, h3⟩
  · exact .inr ⟨w', l', e, h1, h3, h4⟩

/-- A call to which `integrate_reliable` applies: the harmonic oscillator from `0` to `10`, and from `10` back to `0`. -/
example : ∃ C, ∀ w l m, (1 : ℝ) / 10 ^ 6 < C * (9 / 10) ^ 498 ∨
    (∃ r w' l', integrate (TimeArith.exact ℝ 0) true m (countSys oscillator) recordObserver (fun i => if i = 0 then 0 else 1) 0 10 (1 / 10) (w, l) =
      .ok r (w', l ++ l') ∧ r.t = 10) ∧
    ∃ r w' l', integrate (TimeArith.exact ℝ 0) true m (countSys oscillator) recordObserver (fun i => if i = 0 then 0 else 1) 10 0 (-1 / 10) (w, l) =
      .ok r (w', l ++ l') ∧ r.t = 0 := by
  obtain ⟨C, hC⟩ := integrate_reliable oscillator_evaluates (oscillator_good 6) oscillator_solution true 0 10 1
  have hx : ‖(fun i => if i = 0 then 0 else 1 : Fin 2 → ℝ)‖ ≤ 1 := by
    rw [pi_norm_le_iff_of_nonneg (by norm_num)]
    intro i
    split <;> simp
  refine ⟨C, fun w l m => ?_⟩
  rcases hC 0 0 10 (1 / 10) _ m w l le_rfl (by norm_num) hx (by norm_num) (by norm_num) (by norm_num) (by norm_num [Beyond]) with
    ⟨r1, w1, l1, e1, -, -, -, a1⟩ | ⟨w1, l1, -, -, h⟩
  swap
  · exact .inl h
  rcases hC 0 10 0 (-1 / 10) _ m w l le_rfl (by norm_num) hx (by norm_num) (by norm_num) (by norm_num) (by norm_num [Beyond]) with
    ⟨r2, w2, l2, e2, -, -, -, a2⟩ | ⟨w2, l2, -, -, h⟩
  swap
  · exact .inl h
  refine .inr ⟨⟨r1, w1, l1, e1, ?_⟩, ⟨r2, w2, l2, e2, ?_⟩⟩
  · have := abs_nonpos_iff.1 a1; linarith
  · have := abs_nonpos_iff.1 a2; linarith

end Verif
