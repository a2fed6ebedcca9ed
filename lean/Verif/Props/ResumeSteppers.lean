import Verif.Props.Resume
import Verif.Props.Convergence
import Verif.Props.AdamsDefaultInit

/-! # C80: which steppers satisfy the hypothesis -/

namespace Verif

section
variable {K V W : Type}

/-- A stepper whose step is given by a recipe for values has no memory. -/
theorem memoryless_of_implements {step : Loc → K → K → StepM K V W Unit} {os : List Owner} {exc : List Loc} {spec : V → K → K → M W V}
    (hos : ¬ (Loc.user 0).ownedBy os)
    (H : ∀ h t dt, Implements os h (step (.user 0) t dt) (spec (h.state (.user 0)) t dt) (fun v => [(.user 0, v)]) exc) :
    (stepperObject step).Memoryless := by
  have key : ∀ q x t dt w, (Prod.snd <$> (stepperObject step).doStep q x t dt) w =
      match spec x t dt w.1 with
      | .ok v w1 => .ok v (w1, w.2)
      | .err e w1 => .err e (w1, w.2)
      | .ub => .ub
      | .div => .div := by
    intro q x t dt w
    have h1 := H ((q.set (.user 0) x).withWorld w.1) t dt
    have hx : ((q.set (.user 0) x).withWorld w.1).state (.user 0) = x := by simp [Heap.withWorld, Heap.set]
    have hw : ((q.set (.user 0) x).withWorld w.1).world = w.1 := rfl
    rw [hx] at h1
    unfold Implements at h1
    rw [hw] at h1
    rw [M.map_apply]
    simp only [stepperObject]
    cases hs : spec x t dt w.1 with
    | ok v w1 =>
      rw [hs] at h1
      obtain ⟨h', e1, e2, e3⟩ := h1
      have e4 := (e3 (.user 0) hos).1
      simp only [e1, e2, e4]
      simp [Heap.setAll, Heap.set]
    | err e w1 =>
      rw [hs] at h1
      obtain ⟨h', e1, e2, -⟩ := h1
      simp only [e1, e2]
    | ub => rw [hs] at h1; simp only [h1]
    | div => rw [hs] at h1; simp only [h1]
  intro q q' x t dt
  funext w
  rw [key, key]

/-- Euler's method, the modified midpoint method and the Runge-Kutta steppers without stored derivative, for every system function. -/
theorem explicit_memoryless [Field K] [AddCommGroup V] [Module K V] (s : ExplicitStepper K) (hw : s.WellFormed) (sys : Sys K V W) :
    (stepperObject (K := K) fun l t dt => doStep1 s.impl sys l t dt).Memoryless :=
  memoryless_of_implements (spec := fun x t dt => do let k ← sys x t; s.recipe sys x k t dt) (os := stepOwners) (ownedBy_user _ _) fun h t dt => doStep1_implements s hw sys (.user 0) t dt h (ownedBy_user _ _)

end

/-- `runge_kutta4` in the integrate functions, for a system that counts its calls and refuses negative states: 3 and 4 steps are 7 steps. -/
example (q q' : Heap ℚ ℚ ℕ) (x t0 dt : ℚ) :
    let sys : Sys ℚ ℚ ℕ := fun x t n => if x < 0 then .err (.user 1) n else .ok (x * t) (n + 1)
    let st := (stepperObject (K := ℚ) fun l t dt => doStep1 (ExplicitStepper.rk4 (K := ℚ)).impl sys l t dt)
    integrateNStepsBasic (TimeArith.exact ℚ 0) (st.lift (List (ℚ × ℚ))) noteObserver q x t0 dt (3 + 4) = (do
      let r ← integrateNStepsBasic (TimeArith.exact ℚ 0) (st.lift (List (ℚ × ℚ))) noteObserver q x t0 dt 3
      withoutFirst (integrateNStepsBasic (TimeArith.exact ℚ 0) (st.lift (List (ℚ × ℚ))) noteObserver q' r.1 r.2 dt 4)) :=
  n_steps_resume (explicit_memoryless (ExplicitStepper.rk4 (K := ℚ)) trivial _) 0 t0 dt x 3 4 q q'

/-- The other functions, with any stepper handed over by reference. -/
example {Q W S : Type} (st : BasicStepper Q W S ℚ) (x : S) :
    integrateConstBasic (TimeArith.exact ℚ (1 / 100)) (st.byReference.lift (List (S × ℚ))) noteObserver () x 0 2 (3 / 10) = (do
      let r₁ ← integrateConstBasic (TimeArith.exact ℚ (1 / 100)) (st.byReference.lift (List (S × ℚ))) noteObserver () x 0 1 (3 / 10)
      let r₂ ← withoutFirst (integrateConstBasic (TimeArith.exact ℚ (1 / 100)) (st.byReference.lift (List (S × ℚ))) noteObserver () r₁.1 (0 + r₁.2 * (3 / 10)) 2 (3 / 10))
      return (r₂.1, r₁.2 + r₂.2)) :=
  const_resume (reference_memoryless st) (1 / 100) 0 1 2 (3 / 10) x () () (Or.inl ⟨by norm_num, by norm_num⟩)

example {Q W S : Type} (st : BasicStepper Q W S ℚ) (x : S) :
    integrateAdaptiveBasic (TimeArith.exact ℚ (1 / 100)) (st.byReference.lift (List (S × ℚ))) noteObserver () x 0 (-2) (-3 / 10) = (do
      let r₁ ← integrateAdaptiveBasic (TimeArith.exact ℚ (1 / 100)) (st.byReference.lift (List (S × ℚ))) noteObserver () x 0 (0 + (4 : ℕ) * (-3 / 10)) (-3 / 10)
      let r₂ ← withoutFirst (integrateAdaptiveBasic (TimeArith.exact ℚ (1 / 100)) (st.byReference.lift (List (S × ℚ))) noteObserver () r₁.1
        (0 + (4 : ℕ) * (-3 / 10)) (-2) (-3 / 10))
      return (r₂.1, r₁.2 + r₂.2)) :=
  adaptive_resume (reference_memoryless st) (1 / 100) 0 (-2) (-3 / 10) (by norm_num) (by norm_num) x 4 () () (Or.inr ⟨by norm_num, by norm_num⟩)

example {Q W S : Type} (st : BasicStepper Q W S ℚ) (x : S) :
    integrateTimesBasic (TimeArith.exact ℚ 0) (st.byReference.lift (List (S × ℚ))) noteObserver () x [0, 1, 2, 5] (3 / 10) = (do
      let r₁ ← integrateTimesBasic (TimeArith.exact ℚ 0) (st.byReference.lift (List (S × ℚ))) noteObserver () x [0, 1, 2] (3 / 10)
      let r₂ ← withoutFirst (integrateTimesBasic (TimeArith.exact ℚ 0) (st.byReference.lift (List (S × ℚ))) noteObserver () r₁.1 [2, 5] (3 / 10))
      return (r₂.1, r₁.2 + r₂.2)) :=
  times_resume (reference_memoryless st) 0 (3 / 10) le_rfl x () () 2 [0, 1] [5]

/-- **A stepper with memory that is handed over by value starts anew**: with a new `adams_bashforth<N>` (`N` from 2 to 8) `2(N-1)` steps of `x' = 1` give another
result than `N-1` steps and again `N-1` steps. -/
theorem adams_value_restarts {W : Type} {N : ℕ} (h2 : 2 ≤ N) (h8 : N ≤ 8) (resized : Heap ℝ ℝ W → Bool)
    (hres : ∀ h, resized h = true → h.nat mStepsInit = 0) (t0 dt x0 : ℝ) (hdt : dt ≠ 0) (q : Heap ℝ ℝ W) (w : W) (hq : AdamsFresh N q) :
    let st := stepperObject (K := ℝ) fun l t dt h => abStep N (abCoef N) (abDefaultInit ℝ N) unitSys (resized h) l t l dt h
    ∃ x x1 x2 w0 w1 w2 l0 l1 l2,
      integrateNStepsBasic (TimeArith.exact ℝ 0) st recordObserver q x0 t0 dt (N - 1 + (N - 1)) (w, []) = .ok (x, t0 + (N - 1 + (N - 1) : ℕ) * dt) (w0, l0) ∧
      integrateNStepsBasic (TimeArith.exact ℝ 0) st recordObserver q x0 t0 dt (N - 1) (w, []) = .ok (x1, t0 + (N - 1 : ℕ) * dt) (w1, l1) ∧
      integrateNStepsBasic (TimeArith.exact ℝ 0) st recordObserver q x1 (t0 + (N - 1 : ℕ) * dt) dt (N - 1) (w1, []) =
        .ok (x2, t0 + (N - 1 : ℕ) * dt + (N - 1 : ℕ) * dt) (w2, l2) ∧
      x2 ≠ x := by
  obtain ⟨c, hc, H⟩ := adams_bashforth_default_error (W := W) (by omega : 1 ≤ N) h8 resized hres
  obtain ⟨w0, l0, e0⟩ := H 0 t0 dt x0 (N - 1 + (N - 1)) q w [] hq
  obtain ⟨w1, l1, e1⟩ := H 0 t0 dt x0 (N - 1) q w [] hq
  obtain ⟨w2, l2, e2⟩ := H 0 (t0 + (N - 1 : ℕ) * dt) dt (x0 + (N - 1 : ℕ) * dt + (min (N - 1) (N - 1) : ℕ) * ((c - 1) * dt)) (N - 1) q w1 [] hq
  refine ⟨_, _, _, w0, w1, w2, l0, l1, l2, e0, e1, e2, ?_⟩
  have h1 : min (N - 1 + (N - 1)) (N - 1) = N - 1 := by omega
  have hN : ((N - 1 : ℕ) : ℝ) ≠ 0 := by exact_mod_cast (by omega : N - 1 ≠ 0)
  have hc' : c - 1 ≠ 0 := by intro h; linarith
  rw [h1, min_self]
  intro h
  have : ((N - 1 : ℕ) : ℝ) * ((c - 1) * dt) = 0 := by
    push_cast [Nat.cast_add] at h
    linarith
  exact mul_ne_zero hN (mul_ne_zero hc' hdt) this

end Verif
