import Verif.Spec.ImplicitEuler
import Verif.Spec.Convergence

/-! # Specification vocabulary: `implicit_euler` inside the integrate functions -/

namespace Verif
variable {W Pm : Type} {n : ℕ}

/-- `implicit_euler` as the integrate functions see it (all its members are written before they are read, hence there is no memory).  The call of `exit( 0 )`,
which ends the program, is written as an exception with the number zero here. -/
noncomputable def ieObject (L : Lu ℝ n Pm) (large : (Fin n → ℝ) → Bool) (sys : Sys ℝ (Fin n → ℝ) W) (jac : IeJac ℝ W n) :
    BasicStepper Unit (W × Log (Fin n → ℝ) ℝ) (Fin n → ℝ) ℝ where
  doStep _ x t dt := fun w =>
    match ieStep L large sys jac x t dt w.1 with
    | .ok (some y) w' => .ok ((), y) (w', w.2)
    | .ok none w' => .err (.user 0) (w', w.2)
    | .err e w' => .err e (w', w.2)
    | .ub => .ub
    | .div => .div

/-- How the linear solver treats matrices near `-1`: it needs no permutation, and the factors (stored in one matrix) are near `-1` again.  Substitution with the
factors is nearly a multiplication by `-1`. -/
def Lu.NearMinusOne (L : Lu ℝ n Pm) (c ε₀ : ℝ) : Prop :=
  ∀ ε ≤ ε₀, ∀ m : Matrix (Fin n) (Fin n) ℝ, (∀ i j, |m i j + (1 : Matrix (Fin n) (Fin n) ℝ) i j| ≤ ε) →
    ∃ m', L.factorize m L.start = some (m', L.start) ∧ (∀ i j, |m' i j + (1 : Matrix (Fin n) (Fin n) ℝ) i j| ≤ c * ε) ∧
      ∀ b, ‖L.substitute m' L.start b + b‖ ≤ c * ε * ‖b‖

/-- The Jacobian function always returns, with the value `J`. -/
def IeJac.Evaluates (jac : IeJac ℝ W n) (J : (Fin n → ℝ) → ℝ → Matrix (Fin n) (Fin n) ℝ) : Prop := ∀ x t w, ∃ w', jac x t w = .ok (J x t) w'

/-- The integrate functions converge on the interval `[a,b]` with order `p` to the solution `φ`, up to an error `rest`, if the steps are small enough: for all start
states not further than `R` from the solution there are a constant `C` and a step size `h₀` such that for all step sizes up to `h₀` the call returns, and all
observed states and the final state differ from the solution at their time by at most `C * ( |x0 - φ t0| + |dt|^p ) + rest`. -/
def ConvergesOn {V W Q : Type} [NormedAddCommGroup V] [NormedSpace ℝ V] (a b : ℝ) (p : ℕ) (rest : ℝ) (st : BasicStepper Q (W × Log V ℝ) V ℝ) (φ : ℝ → V) : Prop :=
  ∀ R : ℝ, ∃ C h₀ : ℝ, 0 < h₀ ∧ ∀ (eps t0 t1 dt : ℝ) (x0 : V) (q : Q) (w : W) (l : Log V ℝ), 0 ≤ eps → eps ≤ 1 → t0 ∈ Set.Icc a b → t1 ∈ Set.Icc a b →
    dt ≠ 0 → |dt| ≤ h₀ → ‖x0 - φ t0‖ ≤ R →
    let A := TimeArith.exact ℝ eps
    let bound := C * (‖x0 - φ t0‖ + |dt| ^ p) + rest
    let grid := fun n : ℕ => (List.range (n + 1)).map fun k : ℕ => t0 + (k : ℝ) * dt
    /- `integrate_n_steps` to the time `t1` -/
    (∀ n : ℕ, t1 = t0 + n * dt → ∃ x w' l', integrateNStepsBasic A st recordObserver q x0 t0 dt n (w, l) = .ok (x, t1) (w', l ++ l') ∧
      l'.observations.map Prod.snd = grid n ∧ CloseTo φ bound l' ∧ ‖x - φ t1‖ ≤ bound) ∧
    /- `integrate_const`: to the last grid point that is not beyond `t1` -/
    (∃ x n w' l', integrateConstBasic A st recordObserver q x0 t0 t1 dt (w, l) = .ok (x, n) (w', l ++ l') ∧
      l'.observations.map Prod.snd = grid n ∧ CloseTo φ bound l' ∧ ‖x - φ (t0 + n * dt)‖ ≤ bound) ∧
    /- `integrate_adaptive`: to the time `t1`, up to `eps` -/
    (¬ Beyond eps dt t0 t1 → ∃ x n w' l', integrateAdaptiveBasic A st recordObserver q x0 t0 t1 dt (w, l) = .ok (x, n) (w', l ++ l') ∧
      CloseTo φ bound l' ∧ ∃ t, |t - t1| ≤ eps ∧ (x, t) ∈ l'.observations ∧ ‖x - φ t‖ ≤ bound)

/-- The integrate functions converge with order `p` to the solution `φ` on every interval, if the steps are small enough. -/
def ConvergesForSmallSteps {V W Q : Type} [NormedAddCommGroup V] [NormedSpace ℝ V] (p : ℕ) (st : BasicStepper Q (W × Log V ℝ) V ℝ) (φ : ℝ → V) : Prop :=
  ∀ a b : ℝ, ConvergesOn a b p 0 st φ

end Verif
