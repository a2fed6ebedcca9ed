import Verif.Props.Rescale
import Verif.Props.IntegrateFixed
import Verif.Lemmas.Steppers
import Verif.Props.Order
import Mathlib.Tactic.Module

/-! # C74 for the steppers of the library -/

namespace Verif
variable {K V W : Type} [Field K] [LinearOrder K] [AddCommGroup V] [Module K V] {c b : K}

theorem rescaleSys_bind {α : Type} (hc : c ≠ 0) (sys : Sys K V W) (x : V) (t t' : K) (ht : t' = c * t + b) (f : V → M W α) :
    (rescaleSys c b sys x t' >>= f) = sys x t >>= fun k => f (c⁻¹ • k) := by
  subst ht
  unfold rescaleSys
  rw [scale_back hc, bind_assoc]
  simp only [pure_bind]

theorem lin_zip_scale (hc : c ≠ 0) (dt : K) (a : List K) (ks : List V) :
    lin ((a.map (· * (c * dt))).zip (ks.map (c⁻¹ • ·))) = lin ((a.map (· * dt)).zip ks) := by
  change (List.map _ _).sum = (List.map _ _).sum
  congr 1
  induction a generalizing ks with
  | nil => rfl
  | cons a l ih =>
    cases ks with
    | nil => rfl
    | cons k ks =>
      simp only [List.map_cons, List.zip_cons_cons, ih ks, smul_smul]
      congr 2
      field_simp

theorem lin_cons (a : K) (v : V) (l : List (K × V)) : lin ((a, v) :: l) = a • v + lin l := by
  change (List.map _ _).sum = _ + (List.map _ _).sum
  rw [List.map_cons, List.sum_cons]

theorem rkStages_rescale (hc : c ≠ 0) (sys : Sys K V W) (x : V) (t dt : K) (l : List (K × List K)) (ks : List V) :
    rkStages (rescaleSys c b sys) x (c * t + b) (c * dt) l (ks.map (c⁻¹ • ·)) = List.map (c⁻¹ • ·) <$> rkStages sys x t dt l ks := by
  induction l generalizing ks with
  | nil => simp [rkStages]
  | cons p l ih =>
    obtain ⟨ci, a⟩ := p
    unfold rkStages
    rw [rescaleSys_bind (b := b) hc sys _ (t + ci * dt) _ (by ring), map_bind, lin_cons, lin_cons, lin_zip_scale hc]
    congr 1
    funext k
    rw [← ih]
    congr 1
    simp

theorem rkStep_rescale (hc : c ≠ 0) (T : Tableau K) (sys : Sys K V W) (x k : V) (t dt : K) :
    rkStep T (rescaleSys c b sys) x (c⁻¹ • k) (c * t + b) (c * dt) = rkStep T sys x k t dt := by
  unfold rkStep rkAllStages
  have := rkStages_rescale (b := b) hc sys x t dt (T.c.tail.zip T.a) [k]
  rw [List.map_singleton] at this
  rw [this, bind_map_left]
  congr 1
  funext ks
  unfold rkResult
  rw [lin_cons, lin_cons, lin_zip_scale hc]

theorem recipe_rescale (hc : c ≠ 0) (s : ExplicitStepper K) (sys : Sys K V W) (x k : V) (t dt : K) :
    s.recipe (rescaleSys c b sys) x (c⁻¹ • k) (c * t + b) (c * dt) = s.recipe sys x k t dt := by
  have e : ∀ (d : K) (v : V), (c * d) • c⁻¹ • v = d • v := by
    intro d v
    rw [smul_smul]
    congr 1
    field_simp
  have e1 : ∀ (d f : K) (v : V), (c * d * f) • c⁻¹ • v = (d * f) • v := fun d f v => by rw [mul_assoc, e]
  have e2 : ∀ (d f : K) (v : V), (c * d / f) • c⁻¹ • v = (d / f) • v := fun d f v => by rw [mul_div_assoc, e]
  have nil : lin ([] : List (K × V)) = 0 := rfl
  cases s with
  | euler =>
    unfold ExplicitStepper.recipe
    dsimp only
    unfold eulerStep
    simp only [lin_cons, nil, e]
  | generic T => exact rkStep_rescale hc T sys x k t dt
  | rk4 => exact rkStep_rescale hc _ sys x k t dt
  | cashKarp => exact rkStep_rescale hc _ sys x k t dt
  | fehlberg => exact rkStep_rescale hc _ sys x k t dt
  | rk4Classic =>
    unfold ExplicitStepper.recipe
    dsimp only
    unfold rk4ClassicStep
    rw [rescaleSys_bind (b := b) hc sys _ (t + dt / lit 2) _ (by ring)]
    simp only [lin_cons, nil, e, e2]
    congr 1
    funext k2
    rw [rescaleSys_bind (b := b) hc sys _ (t + dt / lit 2) _ (by ring)]
    simp only [e, e2]
    congr 1
    funext k3
    rw [rescaleSys_bind (b := b) hc sys _ (t + dt) _ (by ring)]
    simp only [e, e2]
  | cashKarpClassic =>
    unfold ExplicitStepper.recipe
    dsimp only
    unfold cashKarpClassicStep cashKarpClassicStages
    simp only [bind_assoc, pure_bind]
    rw [rescaleSys_bind (b := b) hc sys _ (t + dt * frac 1 5) _ (by ring)]
    simp only [lin_cons, nil, e1]
    congr 1
    funext k2
    rw [rescaleSys_bind (b := b) hc sys _ (t + dt * frac 3 10) _ (by ring)]
    simp only [e1]
    congr 1
    funext k3
    rw [rescaleSys_bind (b := b) hc sys _ (t + dt * frac 3 5) _ (by ring)]
    simp only [e1]
    congr 1
    funext k4
    rw [rescaleSys_bind (b := b) hc sys _ (t + dt * lit 1) _ (by ring)]
    simp only [e1]
    congr 1
    funext k5
    rw [rescaleSys_bind (b := b) hc sys _ (t + dt * frac 7 8) _ (by ring)]
    simp only [e1]
  | midpoint m =>
    have frog : ∀ n th th' x0 x1 d h, th' = c * th + b →
        leapFrog (rescaleSys c b sys) (c * h) n th' x0 x1 (c⁻¹ • d) =
          (fun r => (r.1, r.2.1, c⁻¹ • r.2.2)) <$> leapFrog sys h n th x0 x1 d := by
      intro n
      induction n with
      | zero => intro th th' x0 x1 d h _; simp [leapFrog]
      | succ n ih =>
        intro th th' x0 x1 d h ht
        unfold leapFrog
        dsimp only
        rw [rescaleSys_bind (b := b) hc sys _ (th + h) _ (by rw [ht]; ring), map_bind]
        have : (lit 2 * (c * h) : K) = c * (lit 2 * h) := by ring
        simp only [lin_cons, nil, this, e]
        congr 1
        funext k2
        exact ih _ _ _ _ _ _ (by rw [ht]; ring)
    unfold ExplicitStepper.recipe
    dsimp only
    unfold midpointStep
    dsimp only
    rw [mul_div_assoc, rescaleSys_bind (b := b) hc sys _ (t + dt / lit m) _ (by ring)]
    simp only [lin_cons, nil, e]
    congr 1
    funext d
    rw [frog _ (t + dt / lit m) _ _ _ _ _ (by ring), bind_map_left]
    congr 1
    funext r
    have : (frac 1 2 * (c * (dt / lit m)) : K) = c * (frac 1 2 * (dt / lit m)) := by ring
    rw [this, e]

/-- **C74** for the explicit steppers: a step of the problem in the new units does the same as a step of the original problem. -/
theorem explicit_steppers_rescale (hc : c ≠ 0) (s : ExplicitStepper K) (hs : s.WellFormed) (sys : Sys K V W) (x out : ℕ) (t dt : K) (h : Heap K V W) :
    SameOutcome (doStep3 s.impl (rescaleSys c b sys) (.user x) (c * t + b) (.user out) (c * dt) h) (.user out)
      (doStep3 s.impl sys (.user x) t (.user out) dt h) (.user out) := by
  have h1 := doStep3_implements s hs (rescaleSys c b sys) (.user x) (.user out) (c * t + b) (c * dt) h (ownedBy_user _ _)
  have h2 := doStep3_implements s hs sys (.user x) (.user out) t dt h (ownedBy_user _ _)
  rw [rescaleSys_bind (b := b) hc sys _ t _ rfl] at h1
  simp only [recipe_rescale hc] at h1
  exact h1.sameOutcome h2 (ownedBy_user _ _) (ownedBy_user _ _) (by simp)

/-! ## The tolerance of the comparisons has a fixed unit -/

section Fixed
variable {Q S : Type}

/-- the states after each step of size `1` -/
def unitSteps (g : Q → S → ℚ → ℚ → Q × S) (q : Q) (x : S) : ℕ → Q × S
  | 0 => (q, x)
  | n + 1 => g (unitSteps g q x n).1 (unitSteps g q x n).2 n 1

/-- **C74, negation.**  The tolerance of the comparisons is `std::numeric_limits< double >::epsilon()`, whatever the unit of time is.  `integrate_const`
over ten steps of size 1 makes ten steps.  The same problem with times in another unit, in which the step size is `2^-56` (`1.4e-17`, for example
14 attoseconds in seconds), makes 26 steps instead of ten and returns the state at 2.6 times the end time. -/
theorem unit_of_time_matters (g : Q → S → ℚ → ℚ → Q × S) (q : Q) (x : S) (w : Log S ℚ) :
    let A := TimeArith.exact ℚ (1 / 2 ^ 52)
    let c : ℚ := 1 / 2 ^ 56
    let step : Q → S → ℚ → ℚ → Except Err (Q × S) := fun q x t dt => .ok (g q x t dt)
    (∃ w', integrateConstBasic A (loggedBasic step) record q x 0 10 1 w = .ok ((unitSteps g q x 10).2, 10) w') ∧
    (∃ w', integrateConstBasic A (loggedBasic (rescaleStep c 0 step)) record q x (c * 0 + 0) (c * 10 + 0) (c * 1) w = .ok ((unitSteps g q x 26).2, 26) w') := by
  intro A c step
  constructor
  · obtain ⟨n, h1, h2, h3⟩ := integrate_const_exact (1 / 2 ^ 52 : ℚ) step q x 0 10 1 one_ne_zero (unitSteps g q x) rfl
      (fun n k _ => by simp [step, unitSteps]) w
    have hn : n = 10 := by
      have a : ¬ n < 10 := fun h => by
        unfold Beyond at h3
        rw [if_pos one_pos] at h3
        have : ((n + 1 : ℕ) : ℚ) ≤ 10 := by exact_mod_cast h
        linarith
      have b : ¬ 11 ≤ n := fun h => by
        have := h2 11 (by norm_num) h
        unfold Beyond at this
        rw [if_pos one_pos] at this
        norm_num at this
      omega
    subst hn
    exact ⟨_, h1⟩
  · have hc : 0 < c := by norm_num [c]
    have hc0 : c * 1 ≠ 0 := by norm_num [c]
    obtain ⟨n, h1, h2, h3⟩ := integrate_const_exact (1 / 2 ^ 52 : ℚ) (rescaleStep c 0 step) q x (c * 0 + 0) (c * 10 + 0) (c * 1) hc0 (unitSteps g q x) rfl
      (fun n k _ => by
        have e1 : (c * 0 + 0 + k * (c * 1) - 0) / c = k := by field_simp; ring
        have e2 : c * 1 / c = 1 := by field_simp
        simp only [rescaleStep, e1, e2]
        rfl) w
    have hn : n = 26 := by
      have a : ¬ n < 26 := fun h => by
        unfold Beyond at h3
        rw [if_pos (by rw [mul_one]; exact hc)] at h3
        have : ((n + 1 : ℕ) : ℚ) ≤ 26 := by exact_mod_cast h
        norm_num [c] at h3 this
        linarith
      have b : ¬ 27 ≤ n := fun h => by
        have := h2 27 (by norm_num) h
        unfold Beyond at this
        rw [if_pos (by rw [mul_one]; exact hc)] at this
        norm_num [c] at this
      omega
    subst hn
    exact ⟨_, h1⟩

/-- **C74, negation.**  An interval that is not longer than the tolerance is not integrated at all: `integrate_adaptive` with a controlled stepper returns
the start state, whatever the system does. -/
theorem short_interval_ignored {Q W S K : Type} [Field K] [LinearOrder K] [IsStrictOrderedRing K] {eps t0 t1 dt : K} (hdt : 0 < dt) (h : t1 - t0 ≤ eps)
    (st : ControlledStepper Q W S K) (q : Q) (x : S) (w : W) :
    integrateAdaptiveControlled (TimeArith.exact K eps) st nullObserver q x t0 t1 dt w = .ok ⟨x, t0, dt, 0⟩ w := by
  unfold integrateAdaptiveControlled
  rw [M.bind_ok (whileM_stop (by
    dsimp only
    rw [exact_less_false]
    unfold dirSign
    rw [if_pos hdt, one_mul]
    exact h))]
  rfl

end Fixed

/-! ## Cases -/

/-- seconds and milliseconds, with another origin, for `runge_kutta4` and the equation `x' = t x` -/
example (h : Heap ℚ ℚ Unit) :
    SameOutcome (doStep3 (ExplicitStepper.rk4 (K := ℚ)).impl (fun x t => pure ((1000 : ℚ)⁻¹ • ((t - 7) / 1000 * x))) (.user 0) (1000 * 2 + 7) (.user 1) (1000 * (1 / 10)) h) (.user 1)
      (doStep3 (ExplicitStepper.rk4 (K := ℚ)).impl (fun x t => pure (t * x)) (.user 0) 2 (.user 1) (1 / 10) h) (.user 1) :=
  explicit_steppers_rescale (c := 1000) (b := 7) (by norm_num) .rk4 trivial (fun x t => pure (t * x)) 0 1 2 (1 / 10) h

/-- the run of a controlled stepper that accepts steps up to `1`, in other units -/
example : let f : Unit → ℚ → ℚ → ℚ → Except Err (TryResult Unit ℚ ℚ) := fun q x t dt =>
      if |dt| ≤ 1 then .ok ⟨q, x + dt, t + dt, 2 * dt, true⟩ else .ok ⟨q, x, t, dt / 2, false⟩
    integrateAdaptiveControlled (TimeArith.exact ℚ (3 * 0)) (loggedControlled (rescaleTry 3 1 f)) record () 5 (3 * 0 + 1) (3 * 4 + 1) (3 * 1) (Log.rescale 3 1 []) =
      (integrateAdaptiveControlled (TimeArith.exact ℚ 0) (loggedControlled f) record () 5 0 4 1 []).image
        (fun r => ⟨r.x, 3 * r.t + 1, 3 * r.dt, r.count⟩) (Log.rescale 3 1) := by
  intro f
  exact (rescale_controlled (by norm_num) 0 f () 5 0 4 1 0 [] []).2.2.1

end Verif
