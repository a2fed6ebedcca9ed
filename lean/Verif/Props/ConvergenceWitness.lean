import Verif.Props.Convergence
import Mathlib.Analysis.SpecialFunctions.Trigonometric.Deriv
import Mathlib.Analysis.SpecialFunctions.ExpDeriv

/-! # Instances of C63, and C64: the memory of the stepper and the last step of `integrate_adaptive` -/

namespace Verif
open Finset Filter Topology BSeries

/-! The problem `x' = x cos t` with the solution `exp (sin t)`. -/

theorem waves_good (n : ℕ) : GoodRhs (fun (x t : ℝ) => x * Real.cos t) n where
  smooth := by fun_prop
  lipschitz := ⟨1, fun x y t => by
    rw [← sub_mul, norm_mul, one_mul]
    exact mul_le_of_le_one_right (norm_nonneg _) (Real.abs_cos_le_one t)⟩

theorem waves_solution : IsFlowLine (fun (x t : ℝ) => x * Real.cos t) fun t => Real.exp (Real.sin t) :=
  fun t => (Real.hasDerivAt_sin t).exp

theorem waves_evaluates : Evaluates (countSys fun (x t : ℝ) => x * Real.cos t) fun x t => x * Real.cos t := fun _ _ n => ⟨n + 1, rfl⟩

example : ConvergesWithOrder 4 (stepperObject (K := ℝ) fun l t dt => doStep1 (ExplicitStepper.rk4 (K := ℝ)).impl (countSys fun x t => x * Real.cos t) l t dt)
    (fun _ => True) fun t => Real.exp (Real.sin t) :=
  explicit_steppers_converge (ExplicitStepper.rk4 (K := ℝ)) trivial rfl waves_evaluates (waves_good 5) waves_solution

example : ConvergesWithOrder 5 (stepperObject (K := ℝ) fun l t dt => fsalStep1 dopri5Impl false (countSys fun x t => x * Real.cos t) l t dt)
    (fun q => q.flag mFirstCall = true) fun t => Real.exp (Real.sin t) :=
  dopri5_converges waves_evaluates (waves_good 6) waves_solution false

variable {V W : Type} [NormedAddCommGroup V] [NormedSpace ℝ V] [CompleteSpace V]

/-- **C64**, for the steppers without memory.  What `integrate_adaptive` observes and returns does not depend on the earlier use of the stepper. -/
theorem adaptive_memory_partial (s : ExplicitStepper ℝ) (hw : s.WellFormed) {p : ℕ} (hp : s.order = some p) {sys : Sys ℝ V W} {f : V → ℝ → V}
    (hs : Evaluates sys f) (eps t0 t1 dt : ℝ) (hdt : dt ≠ 0) (x0 : V) (w : W) (q q' : Heap ℝ V W) :
    ∃ x n l w1 w2,
      integrateAdaptiveBasic (TimeArith.exact ℝ eps) (stepperObject (K := ℝ) fun l t dt => doStep1 s.impl sys l t dt) recordObserver q x0 t0 t1 dt
        (w, []) = .ok (x, n) (w1, l) ∧
      integrateAdaptiveBasic (TimeArith.exact ℝ eps) (stepperObject (K := ℝ) fun l t dt => doStep1 s.impl sys l t dt) recordObserver q' x0 t0 t1 dt
        (w, []) = .ok (x, n) (w2, l) := by
  obtain ⟨Φ, h1, -, -⟩ := recipe_regular s hw hp hs
  obtain ⟨n, hlt, hn⟩ := exists_last_grid eps t0 t1 dt hdt
  have hst := explicit_stepFn s hw hs h1
  obtain ⟨w1, h1⟩ := adaptive_run hst eps t0 t1 dt x0 n hlt hn q w [] trivial trivial
  obtain ⟨w2, h2⟩ := adaptive_run hst eps t0 t1 dt x0 n hlt hn q' w [] trivial trivial
  rcases h1 with ⟨b1, h1⟩ | ⟨b1, h1⟩ <;> rcases h2 with ⟨b2, h2⟩ | ⟨b2, h2⟩
  · exact ⟨_, _, _, _, _, h1, h2⟩
  · exact absurd b2 b1
  · exact absurd b1 b2
  · exact ⟨_, _, _, _, _, h1, h2⟩

/-- Two different memories. -/
example : ∃ x n l w1 w2,
    integrateAdaptiveBasic (TimeArith.exact ℝ 0) (stepperObject (K := ℝ) fun l t dt => doStep1 (ExplicitStepper.rk4 (K := ℝ)).impl
      (countSys fun x t => x * Real.cos t) l t dt) recordObserver ⟨fun _ => 0, fun _ => 0, fun _ => false, fun _ => 0, 0⟩ 1 0 1 (3 / 10) (0, []) = .ok (x, n) (w1, l) ∧
    integrateAdaptiveBasic (TimeArith.exact ℝ 0) (stepperObject (K := ℝ) fun l t dt => doStep1 (ExplicitStepper.rk4 (K := ℝ)).impl
      (countSys fun x t => x * Real.cos t) l t dt) recordObserver ⟨fun _ => 1, fun _ => 2, fun _ => true, fun _ => 3, 7⟩ 1 0 1 (3 / 10) (0, []) = .ok (x, n) (w2, l) :=
  adaptive_memory_partial (ExplicitStepper.rk4 (K := ℝ)) trivial rfl waves_evaluates 0 0 1 (3 / 10) (by norm_num) 1 0 _ _

/-! The problem `x' = t`: the stepper is exact, if it starts from the right derivative. -/

theorem ramp_evaluates : Evaluates (countSys fun (_ t : ℝ) => t) fun _ t => t := fun _ _ n => ⟨n + 1, rfl⟩

theorem ramp_step (x k t h : ℝ) : (dopri5Fun (fun (_ t : ℝ) => t) x k t h).x = x + h * t + h ^ 2 / 2 + 35 / 384 * h * (k - t) := by
  simp only [dopri5Fun, lin_exact, lit, frac, List.map_cons, List.map_nil, List.sum_cons, List.sum_nil, smul_eq_mul]
  push_cast
  ring

theorem ramp_orbit (dt : ℝ) (n : ℕ) :
    orbit (fun x t h => (dopri5Fun (fun (_ t : ℝ) => t) x t t h).x) 0 dt 0 n = (n * dt) ^ 2 / 2 := by
  induction n with
  | zero => simp [orbit]
  | succ n ih =>
    rw [orbit, ih, ramp_step]
    push_cast
    ring

/-- `runge_kutta_dopri5` as the integrate functions see it. -/
noncomputable abbrev rampStepper (resized : Bool) : BasicStepper (Heap ℝ ℝ ℕ) (ℕ × Log ℝ ℝ) ℝ ℝ :=
  stepperObject (K := ℝ) fun l t dt => fsalStep1 dopri5Impl resized (countSys fun (_ t : ℝ) => t) l t dt

/-- **C64 is violated** by `runge_kutta_dopri5`.  A new stepper `q0` makes one step, for `x' = t` from `x( -1 ) = 1/2`; the result `x( 0 ) = 0` is exact, and the
derivative the stepper `q` stores is right for it.  Then `integrate_adaptive` is called with this stepper, to go on from there to time `1`.  The last,
shorter step is made by `q` itself and not by the copy that has made the other steps, hence starts with the derivative at time `0`: the error at
the end is larger than `C dt^2`, for every constant `C` and some step sizes, although the method has order 5. -/
theorem adaptive_last_step_stale (q0 : Heap ℝ ℝ ℕ) (hq0 : q0.flag mFirstCall = true) :
    ∃ q w0, (rampStepper true).doStep q0 (1 / 2) (-1) 1 (0, []) = .ok (q, 0) (w0, []) ∧
      ∀ C : ℝ, ∃ dt : ℝ, 0 < dt ∧ dt ≤ 1 ∧ ∃ x n w l,
        integrateAdaptiveBasic (TimeArith.exact ℝ 0) (rampStepper false) recordObserver q 0 0 1 dt (w0, []) = .ok (x, n) (w, l) ∧
        C * dt ^ 2 < |x - 1 / 2| := by
  obtain ⟨q, e0, h1, h2⟩ := dopri5_step_from ramp_evaluates true q0 (1 / 2) (-1) 1 0 ([] : Log ℝ ℝ)
  simp only [hq0, Bool.true_or, if_true, ramp_step] at e0 h1
  norm_num at e0 h1
  refine ⟨q, _, e0, fun C => ?_⟩
  -- a step size `2 / (2 n + 1)`
  obtain ⟨n, hn⟩ := exists_nat_gt (max 1 (100 * C))
  have hn1 : (1 : ℝ) < n := (le_max_left _ _).trans_lt hn
  have hnC : 100 * C < n := (le_max_right _ _).trans_lt hn
  have hpos : (0 : ℝ) < 2 * n + 1 := by linarith
  set dt : ℝ := 2 / (2 * n + 1) with hdt
  have hdt0 : 0 < dt := by positivity
  have hdt1 : dt * (2 * n + 1) = 2 := by rw [hdt]; field_simp
  have hend : (n : ℝ) * dt = 1 - dt / 2 := by linarith
  have hstart : DopriReady (fun (_ t : ℝ) => t) (0 : ℝ) 0 q := .inr h1
  have hl : ∀ k : ℕ, k < n → ¬ Beyond 0 dt (0 + ((k + 1 : ℕ) : ℝ) * dt) 1 := by
    intro k hk
    rw [Beyond, if_pos hdt0]
    have : ((k + 1 : ℕ) : ℝ) ≤ n := by exact_mod_cast hk
    nlinarith
  have hr : Beyond 0 dt (0 + ((n + 1 : ℕ) : ℝ) * dt) 1 := by
    rw [Beyond, if_pos hdt0]
    push_cast
    linarith
  obtain ⟨w1, e1⟩ := const_run (dopri5_stepFn ramp_evaluates false) 0 0 1 dt 0 n hl hr q (q.world) [] hstart
  rw [ramp_orbit] at e1
  generalize [] ++ orbitObs (fun x t h => (dopri5Fun (fun (_ t : ℝ) => t) x t t h).x) 0 dt 0 0 (n + 1) = log at e1
  obtain ⟨q2, e2, -⟩ := dopri5_step_from ramp_evaluates false q ((n * dt) ^ 2 / 2) (0 + n * dt) (1 - (0 + n * dt)) w1 log
  simp only [h2, Bool.or_self, Bool.false_eq_true, if_false, h1, ramp_step] at e2
  generalize hx : ((n : ℝ) * dt) ^ 2 / 2 + (1 - (0 + n * dt)) * (0 + n * dt) + (1 - (0 + n * dt)) ^ 2 / 2 +
    35 / 384 * (1 - (0 + n * dt)) * (0 - (0 + n * dt)) = x at e2
  have hlt : (TimeArith.exact ℝ 0).lessWithSign ((TimeArith.exact ℝ 0).add 0 ((TimeArith.exact ℝ 0).nmul n dt)) 1 dt = true := by
    refine (exact_less _ _ _ _).mpr ((beyond_iff _ _ _ _).mp ?_)
    rw [Beyond, if_pos hdt0]
    show (0 : ℝ) + n * dt + 0 < 1
    linarith
  refine ⟨dt, hdt0, ?_, x, n + 1, q2.world, log ++ [.obs x 1], ?_, ?_⟩
  · nlinarith
  · rw [integrateAdaptiveBasic, M.bind_ok e1]
    dsimp only
    rw [if_pos hlt]
    exact (M.bind_ok e2 _).trans (M.bind_ok (recordObserver_ok _ _ _ _) _)
  · rw [← hx, hend, lt_abs]
    right
    have h5 : dt * n ≥ 1 / 2 := by nlinarith
    have h6 : 100 * (C * dt) < 1 := by nlinarith
    nlinarith

end Verif
