import Verif.Props.ControlledRun
import Mathlib.Analysis.SpecialFunctions.Trigonometric.Deriv
import Mathlib.Analysis.Calculus.Deriv.Pi

/-! # Instances of C65: the harmonic oscillator -/

namespace Verif

/-- the harmonic oscillator `x' = v`, `v' = -x` -/
def oscillator (x : Fin 2 → ℝ) (_ : ℝ) : Fin 2 → ℝ := fun i => if i = 0 then x 1 else - x 0

theorem oscillator_good (n : ℕ) : GoodRhs oscillator n where
  smooth := by
    rw [contDiff_pi]
    intro i
    unfold oscillator
    split <;> fun_prop
  lipschitz := ⟨1, fun x y t => by
    rw [one_mul, pi_norm_le_iff_of_nonneg (norm_nonneg _)]
    intro i
    have h0 := norm_le_pi_norm (x - y) 0
    have h1 := norm_le_pi_norm (x - y) 1
    simp only [Pi.sub_apply] at h0 h1
    simp only [oscillator, Pi.sub_apply]
    split
    · exact h1
    · rw [← neg_sub', norm_neg]; exact h0⟩

theorem oscillator_solution : IsFlowLine oscillator fun t i => if i = 0 then Real.sin t else Real.cos t := by
  intro t
  rw [hasDerivAt_pi]
  intro i
  by_cases h : i = 0
  · simp only [h, if_true, oscillator]
    exact Real.hasDerivAt_sin t
  · simp only [h, if_false, oscillator, if_true]
    exact Real.hasDerivAt_cos t

theorem oscillator_evaluates : Evaluates (countSys oscillator) oscillator := fun _ _ n => ⟨n + 1, rfl⟩

/-- `controlled_runge_kutta< runge_kutta_cash_karp54 >` and the harmonic oscillator -/
theorem oscillator_cash_karp :
    IntegratesReliably 5 oscillator
      (fun x t h r => ∀ w, ∃ w', (ErrorStepper.cashKarp (K := ℝ)).errRecipe (countSys oscillator) x (oscillator x t) t h w = .ok r w')
      (fun τ maxDt => controlledObject (K := ℝ) fun l t dt => tryStep1 (τ.controlUpTo 2 5 4 maxDt) (ErrorStepper.cashKarp (K := ℝ)).errImpl (countSys oscillator) l t dt)
      (fun _ => True) fun t i => if i = 0 then Real.sin t else Real.cos t :=
  controlled_steppers_integrate (ErrorStepper.cashKarp (K := ℝ)) rfl rfl oscillator_evaluates (oscillator_good 6) oscillator_solution

/-- `controlled_runge_kutta< runge_kutta_fehlberg78 >` -/
example :
    IntegratesReliably 8 oscillator
      (fun x t h r => ∀ w, ∃ w', (ErrorStepper.fehlberg (K := ℝ)).errRecipe (countSys oscillator) x (oscillator x t) t h w = .ok r w')
      (fun τ maxDt => controlledObject (K := ℝ) fun l t dt => tryStep1 (τ.controlUpTo 2 8 7 maxDt) (ErrorStepper.fehlberg (K := ℝ)).errImpl (countSys oscillator) l t dt)
      (fun _ => True) fun t i => if i = 0 then Real.sin t else Real.cos t :=
  controlled_steppers_integrate (ErrorStepper.fehlberg (K := ℝ)) rfl rfl oscillator_evaluates (oscillator_good 9) oscillator_solution

/-- `controlled_runge_kutta< runge_kutta_dopri5 >` -/
example :
    IntegratesReliably 5 oscillator
      (fun x t h r => ∀ w, ∃ k' w', dopri5ErrStep (countSys oscillator) x (oscillator x t) t h w = .ok ((r.1, k'), r.2) w')
      (fun τ maxDt => controlledObject (K := ℝ) fun l t dt => fsalTry1 (τ.controlUpTo 2 5 4 maxDt) dopri5ErrImpl false (countSys oscillator) l t dt)
      (fun o => o.flag mCtrlFirst = true) fun t i => if i = 0 then Real.sin t else Real.cos t :=
  controlled_dopri5_integrates oscillator_evaluates (oscillator_good 6) oscillator_solution false

/-- Calls to which the property applies: from `0` to `10`, absolute and relative tolerance `1e-6`, step sizes up to `1/2`, first step size `1/10`.
Unless the constant of the problem exceeds `1e-6 / 0.9^498`, `integrate_adaptive` returns a state at time `10`, `integrate_n_steps` with `100` steps
observes `101` states, `integrate_const` ends at the same time, and `integrate_times` observes the times `0`, `3`, `3`, `10`. -/
example : ∃ C, ∀ w l, (1 : ℝ) / 10 ^ 6 < C * (9 / 10) ^ 498 ∨
    let st := controlledObject (K := ℝ) fun l t dt => tryStep1
      ((⟨1 / 10 ^ 6, 1 / 10 ^ 6, 1, 1⟩ : Tolerances).controlUpTo 2 5 4 (1 / 2)) (ErrorStepper.cashKarp (K := ℝ)).errImpl (countSys oscillator) l t dt
    let q : Heap ℝ (Fin 2 → ℝ) ℕ := ⟨fun _ => 0, fun _ => 0, fun _ => false, fun _ => 0, 0⟩
    let x0 : Fin 2 → ℝ := fun i => if i = 0 then 0 else 1
    let A := TimeArith.exact ℝ 0
    (∃ r w' l', integrateAdaptiveControlled A st recordObserver q x0 0 10 (1 / 10) (w, l) = .ok r (w', l ++ l') ∧ r.t = 10) ∧
    (∃ x w' l', integrateNStepsControlled A st recordObserver q x0 0 (1 / 10) 100 (w, l) = .ok (x, 0 + (100 : ℕ) * (1 / 10)) (w', l ++ l') ∧
      l'.observations.length = 101) ∧
    (∃ x m w' l', integrateConstControlled A st recordObserver q x0 0 10 (1 / 10) (w, l) = .ok (x, m) (w', l ++ l') ∧
      ∃ n : ℕ, l'.observations.length = n + 1 ∧ (n : ℝ) / 10 ≤ 10 ∧ (10 : ℝ) < (n + 1) / 10) ∧
    ∃ x n w' l', integrateTimesControlled A st recordObserver q x0 [0, 3, 3, 10] (1 / 10) (w, l) = .ok (x, n) (w', l ++ l') ∧
      l'.observations.map Prod.snd = [0, 3, 3, 10] := by
  obtain ⟨C, hC⟩ := oscillator_cash_karp 0 10 1
  refine ⟨C, fun w l => ?_⟩
  obtain ⟨h1, h2, h3, h4⟩ := hC ⟨1 / 10 ^ 6, 1 / 10 ^ 6, 1, 1⟩ (1 / 2) 0 (1 / 10) (fun i => if i = 0 then 0 else 1)
    ⟨fun _ => 0, fun _ => 0, fun _ => false, fun _ => 0, 0⟩ w l
    ⟨by norm_num, by norm_num, by norm_num, by norm_num⟩ trivial
    (by
      rw [pi_norm_le_iff_of_nonneg (by norm_num)]
      intro i
      split <;> simp) (by norm_num) (by norm_num) (.inr (.inl ⟨by norm_num, by norm_num⟩))
  rcases h1 0 10 le_rfl (by norm_num) (by norm_num) (by norm_num [Beyond]) with ⟨r, w1, l1, e1, -, -, -, a1⟩ | ⟨w1, l1, -, -, h⟩
  swap
  · exact .inl h
  rcases h2 100 (by norm_num) with ⟨x2, w2, l2, e2, a2, -⟩ | ⟨w2, l2, -, -, -, -, h⟩
  swap
  · exact .inl h
  obtain ⟨n, b1, b2, h3⟩ := h3 10 (by norm_num) (by norm_num [Beyond])
  rcases h3 with ⟨x3, m3, w3, l3, e3, a3, -⟩ | ⟨w3, l3, -, -, -, -, h⟩
  swap
  · exact .inl h
  rcases h4 [3, 3, 10] (by norm_num) (by norm_num [MonotoneTimes]) with ⟨x4, n4, w4, l4, e4, a4, -⟩ | ⟨w4, l4, -, -, -, -, h⟩
  swap
  · exact .inl h
  refine .inr ⟨⟨r, w1, l1, e1, ?_⟩, ⟨x2, w2, l2, e2, ?_⟩, ⟨x3, m3, w3, l3, e3, n, ?_, ?_, ?_⟩, ⟨x4, n4, w4, l4, e4, a4⟩⟩
  · have := abs_nonpos_iff.1 a1
    linarith
  · have := congrArg List.length a2
    simpa using this
  · have := congrArg List.length a3
    simpa using this
  · rw [not_beyond_iff] at b1
    norm_num [dirSign] at b1
    linarith
  · rw [beyond_iff] at b2
    norm_num [dirSign] at b2
    linarith

end Verif
