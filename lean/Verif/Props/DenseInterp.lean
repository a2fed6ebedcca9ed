import Verif.Props.DenseSteps
import Mathlib.Analysis.Calculus.Deriv.Pow
import Mathlib.Analysis.Calculus.Deriv.Mul
import Mathlib.Analysis.Calculus.Deriv.Add
import Mathlib.Analysis.Calculus.Deriv.Comp
import Mathlib.Tactic.FieldSimp
import Mathlib.Tactic.Ring
import Mathlib.Tactic.Module

/-!
# C33: dense output is continuous with the steps it interpolates

Exact arithmetic: the states form a module over a field of characteristic 0 (for the derivatives: a real normed space).
-/

set_option linter.unusedSectionVars false

namespace Verif

section Field
variable {K V W : Type} [Field K] [CharZero K] [AddCommGroup V] [Module K V]

/-! ## `euler` -/

/-- What `calc_state` of the dense output stepper of `euler` stores for the time `t`. -/
def EulerDense.interp (a : EulerDense K V W) (t : K) : V := lin [(lit 1, a.view.xOld), (t - a.view.tOld, a.slope)]

/-- `calc_state` stores that value and changes nothing else. -/
theorem euler_calc_state (sys : Sys K V W) (a : EulerDense K V W) (t : K) (x : ℕ) :
    a.call sys (.calcAt t x) = .ok none ⟨a.view, a.slope, Function.update a.user x (a.interp t), a.world⟩ := rfl

/-- The interpolation data fit together: the line through the previous state ends in the current state. -/
def EulerDense.Fits (a : EulerDense K V W) : Prop :=
  a.interp a.view.tOld = a.view.xOld ∧ a.interp a.view.t = a.view.x

/-- **C33** (`euler`): after every `do_step`, and after any number of calls of `calc_state` after it, `calc_state`
returns the previous state at the previous time and the current state at the current time. -/
theorem euler_dense_continuous (sys : Sys K V W) (a a₁ a₂ : EulerDense K V W) (r : Option (K × K))
    (cs : List (K × ℕ)) (rs : List (Option (K × K)))
    (hstep : a.call sys .step = .ok r a₁)
    (hcalc : runSeq (fun c a => a.call sys c) (cs.map fun p => DenseCall.calcAt p.1 p.2) a₁ = .ok rs a₂) : a₂.Fits := by
  have h1 : a₁.Fits := by
    unfold EulerDense.call at hstep
    dsimp only at hstep
    cases hk : sys a.view.x a.view.t a.world with
    | ok k w =>
      rw [hk] at hstep
      simp only [Res.ok.injEq] at hstep
      obtain ⟨-, rfl⟩ := hstep
      constructor <;> simp [EulerDense.interp, lin, lit]
    | err => rw [hk] at hstep; cases hstep
    | ub => rw [hk] at hstep; cases hstep
    | div => rw [hk] at hstep; cases hstep
  clear hstep
  induction cs generalizing a₁ rs with
  | nil =>
    simp only [List.map, runSeq, M.pure_apply, Res.ok.injEq] at hcalc
    obtain ⟨-, rfl⟩ := hcalc
    exact h1
  | cons c cs ih =>
    simp only [List.map, runSeq] at hcalc
    rw [M.bind_ok (m := fun a => EulerDense.call sys a (DenseCall.calcAt c.1 c.2))
      (euler_calc_state sys a₁ c.1 c.2), M.bind_apply] at hcalc
    cases hr : runSeq (fun c a => EulerDense.call sys a c) (cs.map fun p => DenseCall.calcAt p.1 p.2)
        ⟨a₁.view, a₁.slope, Function.update a₁.user c.2 (a₁.interp c.1), a₁.world⟩ with
    | ok rs' a' =>
      rw [hr] at hcalc
      simp only [M.pure_apply, Res.ok.injEq] at hcalc
      obtain ⟨-, rfl⟩ := hcalc
      exact ih _ _ hr h1
    | err => rw [hr] at hcalc; cases hcalc
    | ub => rw [hr] at hcalc; cases hcalc
    | div => rw [hr] at hcalc; cases hcalc

/-! ## `runge_kutta_dopri5` -/

/-- the weights of the stages 1, 3, 4, 5, 6, 7 as cubic Hermite interpolation plus correction -/
def hermite (β p q d e θ : K) : K :=
  β * (θ ^ 2 * (3 - 2 * θ)) + (p + q * θ) * (θ ^ 2 * (θ - 1) ^ 2) + d * (θ * (θ - 1) ^ 2) + e * (θ ^ 2 * (θ - 1))

theorem dopri5DenseB_hermite (θ : K) : dopri5DenseB θ =
    [hermite (35 / 384) (-(5 * 2558722523 / 11282082432)) (5 * 31403016 / 11282082432) 1 0 θ,
     hermite (500 / 1113) (100 * 882725551 / 32700410799) (-(100 * 15701508 / 32700410799)) 0 0 θ,
     hermite (125 / 192) (-(25 * 443332067 / 1880347072)) (25 * 31403016 / 1880347072) 0 0 θ,
     hermite (-2187 / 6784) (32805 * 23143187 / 199316789632) (-(32805 * 3489224 / 199316789632)) 0 0 θ,
     hermite (11 / 84) (-(55 * 29972135 / 822651844)) (55 * 7076736 / 822651844) 0 0 θ,
     hermite 0 (10 * 7414447 / 29380423) (-(10 * 829305 / 29380423)) 0 1 θ] := by
  simp only [dopri5DenseB, hermite, frac, lit, List.cons.injEq, and_true]
  push_cast
  refine ⟨by ring, by ring, by ring, by ring, by ring, by ring⟩

theorem hermite_zero (β p q d e : K) : hermite β p q d e 0 = 0 := by simp [hermite]
theorem hermite_one (β p q d e : K) : hermite β p q d e 1 = β := by simp [hermite]; ring

theorem dopri5Interpolant_eq (s : LastStep K V) (tNew t : K) :
    dopri5Interpolant s tNew t = s.xOld +
      ((((tNew - s.tOld) * hermite (35 / 384) (-(5 * 2558722523 / 11282082432)) (5 * 31403016 / 11282082432) 1 0
          ((t - s.tOld) / (tNew - s.tOld))) • s.kOld +
      ((tNew - s.tOld) * hermite (500 / 1113) (100 * 882725551 / 32700410799) (-(100 * 15701508 / 32700410799)) 0 0
          ((t - s.tOld) / (tNew - s.tOld))) • s.k3) +
      (((tNew - s.tOld) * hermite (125 / 192) (-(25 * 443332067 / 1880347072)) (25 * 31403016 / 1880347072) 0 0
          ((t - s.tOld) / (tNew - s.tOld))) • s.k4 +
      ((tNew - s.tOld) * hermite (-2187 / 6784) (32805 * 23143187 / 199316789632)
          (-(32805 * 3489224 / 199316789632)) 0 0 ((t - s.tOld) / (tNew - s.tOld))) • s.k5) +
      (((tNew - s.tOld) * hermite (11 / 84) (-(55 * 29972135 / 822651844)) (55 * 7076736 / 822651844) 0 0
          ((t - s.tOld) / (tNew - s.tOld))) • s.k6 +
      ((tNew - s.tOld) * hermite 0 (10 * 7414447 / 29380423) (-(10 * 829305 / 29380423)) 0 1
          ((t - s.tOld) / (tNew - s.tOld))) • s.k7)) := by
  unfold dopri5Interpolant
  rw [dopri5DenseB_hermite]
  simp only [lin, List.map, List.zip, List.zipWith, List.sum_cons, List.sum_nil, lit, Int.cast_one, one_smul, add_zero]
  abel

/-- **C33** (`runge_kutta_dopri5`): at the beginning of the last step the interpolant is the previous state. -/
theorem dopri5_interpolant_begin (s : LastStep K V) (tNew : K) : dopri5Interpolant s tNew s.tOld = s.xOld := by
  rw [dopri5Interpolant_eq]
  simp [hermite_zero]

/-- **C33** (`runge_kutta_dopri5`): at the end of the last step the interpolant is the current state. -/
theorem dopri5_interpolant_end (P : CtrlParams K V) (f : V → K → V) (a : DopriDense K V W) (s : LastStep K V)
    (hl : a.LastValid P f) (hs : a.last = some s) (hne : a.t ≠ s.tOld) :
    dopri5Interpolant s a.t a.t = a.x := by
  obtain ⟨dt, h1, h2, h3, h4⟩ := hl s hs
  have hd : a.t - s.tOld ≠ 0 := sub_ne_zero.mpr hne
  have e : a.t - s.tOld = dt := by rw [h1]; ring
  rw [dopri5Interpolant_eq, div_self hd]
  simp only [hermite_one, e]
  unfold dopri5Fun at h4
  simp only [Dopri5Result.mk.injEq] at h4
  obtain ⟨k3, k4, k5, k6, hx, k7⟩ := h4
  rw [hx, ← k3]
  rw [← k3] at k4
  rw [← k4]
  rw [← k3, ← k4] at k5
  rw [← k5]
  rw [← k3, ← k4, ← k5] at k6
  rw [← k6]
  simp only [lin, List.map, List.sum_cons, List.sum_nil, lit, frac, Int.cast_one, one_smul, add_zero, mul_zero, zero_smul]
  push_cast
  abel

/-! ### order conditions

The interpolant evaluated at the fraction `θ` of the step uses the stages of the step (coefficients `a`, nodes `c`,
stage 7 is the first stage of the next step, its row is the row of weights of the step) with the weights `b(θ)`. -/

/-- `runge_kutta_dopri5.hpp:106-135` as a tableau with seven stages. -/
def dopri5A : List (List K) :=
  [[], [1 / 5], [3 / 40, 9 / 40], [44 / 45, -56 / 15, 32 / 9],
   [19372 / 6561, -25360 / 2187, 64448 / 6561, -212 / 729],
   [9017 / 3168, -355 / 33, 46732 / 5247, 49 / 176, -5103 / 18656],
   [35 / 384, 0, 500 / 1113, 125 / 192, -2187 / 6784, 11 / 84]]

/-- the nodes of the seven stages -/
def dopri5C : List K := [0, 1 / 5, 3 / 10, 4 / 5, 8 / 9, 1, 1]

/-- the weights of the interpolant for all seven stages (stage 2 is not used) -/
def dopri5Weights (θ : K) : List K :=
  match dopri5DenseB θ with
  | b1 :: bs => b1 :: 0 :: bs
  | [] => []

/-- `∑ᵢ uᵢ vᵢ` -/
def dot (u v : List K) : K := (List.zipWith (· * ·) u v).sum

/-- `∑ⱼ aᵢⱼ vⱼ` for every stage `i` -/
def applyA (v : List K) : List K := dopri5A.map fun row => dot row v

/-- component-wise product -/
def cmul (u v : List K) : List K := List.zipWith (· * ·) u v

/-- **C33** (order conditions): at every fraction `θ` of the step the interpolant satisfies the eight order conditions
of a Runge-Kutta method of order 4 for a step of size `θ`, and the nodes are the row sums of the coefficients. -/
theorem dopri5_dense_order_conditions (θ : K) :
    let b := dopri5Weights θ
    let c : List K := dopri5C
    applyA [1, 1, 1, 1, 1, 1] = c ∧
    dot b [1, 1, 1, 1, 1, 1, 1] = θ ∧
    dot b c = θ ^ 2 / 2 ∧
    dot b (cmul c c) = θ ^ 3 / 3 ∧
    dot b (applyA c) = θ ^ 3 / 6 ∧
    dot b (cmul c (cmul c c)) = θ ^ 4 / 4 ∧
    dot b (cmul c (applyA c)) = θ ^ 4 / 8 ∧
    dot b (applyA (cmul c c)) = θ ^ 4 / 12 ∧
    dot b (applyA (applyA c)) = θ ^ 4 / 24 := by
  dsimp only
  unfold dopri5Weights
  rw [dopri5DenseB_hermite]
  simp only [dopri5C, dopri5A, applyA, cmul, dot, hermite, List.map, List.zipWith, List.sum_cons, List.sum_nil,
    List.cons.injEq, and_true]
  norm_num
  refine ⟨by ring, by ring, by ring, by ring, by ring, by ring, by ring, by ring⟩

/-- **C33**: after any sequence of calls of `initialize`, `do_step` and `calc_state` on the dense output stepper, the
interpolant passes through the previous and the current state. -/
theorem dopri5_dense_continuous {f : V → K → V} {sys : Sys K V W} (hf : SysFor f sys) (P : CtrlParams K V)
    (cs : List (DenseCall K)) (a a' : DopriDense K V W) (rs : List (Option (K × K))) (s : LastStep K V)
    (hv : a.DerivValid f) (hl : a.LastValid P f)
    (h : runSeq (fun c a => a.call P sys c) cs a = .ok rs a') (hs : a'.last = some s) (hne : a'.t ≠ s.tOld) :
    dopri5Interpolant s a'.t s.tOld = s.xOld ∧ dopri5Interpolant s a'.t a'.t = a'.x :=
  ⟨dopri5_interpolant_begin s a'.t,
    dopri5_interpolant_end P f a' s (dopri_dense_valid hf P cs a a' rs hv hl h).2 hs hne⟩

end Field

/-- `x' = 1`: there is a run of the dense output stepper with two rejected trials that meets the hypotheses. -/
example (u : ℕ → ℚ) : ∃ a' s rs, runSeq (fun c a => DopriDense.call lateCtrl (countSys oneRhs) a c) [.step]
      (⟨2, 0, 3, none, none, u, 0⟩ : DopriDense ℚ ℚ ℕ) = .ok rs a' ∧ a'.last = some s ∧ a'.t ≠ s.tOld ∧
    dopri5Interpolant s a'.t a'.t = 3 := by
  obtain ⟨a', s, h, hx, -, -, hs, h0, h1⟩ := dense_step_witness u
  have hr : runSeq (fun c a => DopriDense.call lateCtrl (countSys oneRhs) a c) [.step]
      (⟨2, 0, 3, none, none, u, 0⟩ : DopriDense ℚ ℚ ℕ) = .ok [some (0, 1)] a' := by
    have hc : DopriDense.call lateCtrl (countSys oneRhs) (⟨2, 0, 3, none, none, u, 0⟩ : DopriDense ℚ ℚ ℕ) .step =
      .ok (some (0, 1)) a' := by
      unfold DopriDense.call
      dsimp only
      rw [h]
    unfold runSeq
    rw [M.bind_ok (m := fun a => DopriDense.call lateCtrl (countSys oneRhs) a .step) hc]
    rfl
  have hne : a'.t ≠ s.tOld := by rw [h0, h1]; norm_num
  have hf : SysFor oneRhs (countSys oneRhs) := by
    intro x t w v w' e
    simp only [countSys, Res.ok.injEq] at e
    exact e.1.symm
  refine ⟨a', s, _, hr, hs, hne, ?_⟩
  rw [(dopri5_dense_continuous hf lateCtrl _ _ _ _ s (fun k hk => (by cases hk)) (fun s hs => (by cases hs)) hr hs hne).2, hx]

/-! ## The derivative of the interpolant -/

section Real
variable {V : Type} [NormedAddCommGroup V] [NormedSpace ℝ V]

theorem hermite_hasDerivAt (β p q d e θ : ℝ) : HasDerivAt (hermite β p q d e)
    (β * (6 * θ - 6 * θ ^ 2) + q * (θ ^ 2 * (θ - 1) ^ 2) + (p + q * θ) * (2 * θ * (θ - 1) ^ 2 + θ ^ 2 * (2 * (θ - 1))) +
      d * ((θ - 1) ^ 2 + θ * (2 * (θ - 1))) + e * (2 * θ * (θ - 1) + θ ^ 2)) θ := by
  have i := hasDerivAt_id θ
  have sq : HasDerivAt (fun θ : ℝ => θ ^ 2) (2 * θ) θ := by simpa using hasDerivAt_pow 2 θ
  have m : HasDerivAt (fun θ : ℝ => θ - 1) 1 θ := i.sub_const 1
  have m2 : HasDerivAt (fun θ : ℝ => (θ - 1) ^ 2) (2 * (θ - 1)) θ := (m.pow 2).congr_deriv (by simp)
  have a := (sq.mul ((i.const_mul 2).const_sub 3)).const_mul β
  have b := ((i.const_mul q).const_add p).mul (sq.mul m2)
  have c := (i.mul m2).const_mul d
  have g := (sq.mul m).const_mul e
  have := ((a.add b).add c).add g
  refine this.congr_deriv ?_
  simp only [id, Pi.mul_apply]
  ring

theorem hermite_deriv_zero (β p q d e : ℝ) : HasDerivAt (hermite β p q d e) d 0 := by
  have := hermite_hasDerivAt β p q d e 0
  convert this using 1
  ring

theorem hermite_deriv_one (β p q d e : ℝ) : HasDerivAt (hermite β p q d e) e 1 := by
  have := hermite_hasDerivAt β p q d e 1
  convert this using 1
  ring

theorem weight_hasDerivAt {g : ℝ → ℝ} {g' tOld tNew t : ℝ} (hne : tNew ≠ tOld)
    (hg : HasDerivAt g g' ((t - tOld) / (tNew - tOld))) :
    HasDerivAt (fun t => (tNew - tOld) * g ((t - tOld) / (tNew - tOld))) g' t := by
  have hd : tNew - tOld ≠ 0 := sub_ne_zero.mpr hne
  have inner : HasDerivAt (fun t : ℝ => (t - tOld) / (tNew - tOld)) (1 / (tNew - tOld)) t :=
    ((hasDerivAt_id t).sub_const tOld).div_const (tNew - tOld)
  have := (hg.comp t inner).const_mul (tNew - tOld)
  refine this.congr_deriv ?_
  field_simp

/-- **C33** (derivative at the beginning): the interpolant leaves the previous state with the derivative there. -/
theorem dopri5_interpolant_deriv_begin (s : LastStep ℝ V) (tNew : ℝ) (hne : tNew ≠ s.tOld) :
    HasDerivAt (dopri5Interpolant s tNew) s.kOld s.tOld := by
  have e : dopri5Interpolant s tNew = _ := funext (dopri5Interpolant_eq s tNew)
  rw [e]
  have w : ∀ (β p q d e : ℝ) (k : V), HasDerivAt (fun t => ((tNew - s.tOld) * hermite β p q d e
      ((t - s.tOld) / (tNew - s.tOld))) • k) (d • k) s.tOld := by
    intro β p q d e k
    refine (weight_hasDerivAt hne ?_).smul_const k
    rw [sub_self, zero_div]
    exact hermite_deriv_zero β p q d e
  have := (((w (35 / 384) (-(5 * 2558722523 / 11282082432)) (5 * 31403016 / 11282082432) 1 0 s.kOld).add
    (w (500 / 1113) (100 * 882725551 / 32700410799) (-(100 * 15701508 / 32700410799)) 0 0 s.k3)).add
    ((w (125 / 192) (-(25 * 443332067 / 1880347072)) (25 * 31403016 / 1880347072) 0 0 s.k4).add
    (w (-2187 / 6784) (32805 * 23143187 / 199316789632) (-(32805 * 3489224 / 199316789632)) 0 0 s.k5))).add
    ((w (11 / 84) (-(55 * 29972135 / 822651844)) (55 * 7076736 / 822651844) 0 0 s.k6).add
    (w 0 (10 * 7414447 / 29380423) (-(10 * 829305 / 29380423)) 0 1 s.k7))
  have := this.const_add s.xOld
  refine this.congr_deriv ?_
  simp

/-- **C33** (derivative at the end): the interpolant arrives at the current state with the derivative there. -/
theorem dopri5_interpolant_deriv_end (s : LastStep ℝ V) (tNew : ℝ) (hne : tNew ≠ s.tOld) :
    HasDerivAt (dopri5Interpolant s tNew) s.k7 tNew := by
  have hd : tNew - s.tOld ≠ 0 := sub_ne_zero.mpr hne
  have e : dopri5Interpolant s tNew = _ := funext (dopri5Interpolant_eq s tNew)
  rw [e]
  have w : ∀ (β p q d e : ℝ) (k : V), HasDerivAt (fun t => ((tNew - s.tOld) * hermite β p q d e
      ((t - s.tOld) / (tNew - s.tOld))) • k) (e • k) tNew := by
    intro β p q d e k
    refine (weight_hasDerivAt hne ?_).smul_const k
    rw [div_self hd]
    exact hermite_deriv_one β p q d e
  have := (((w (35 / 384) (-(5 * 2558722523 / 11282082432)) (5 * 31403016 / 11282082432) 1 0 s.kOld).add
    (w (500 / 1113) (100 * 882725551 / 32700410799) (-(100 * 15701508 / 32700410799)) 0 0 s.k3)).add
    ((w (125 / 192) (-(25 * 443332067 / 1880347072)) (25 * 31403016 / 1880347072) 0 0 s.k4).add
    (w (-2187 / 6784) (32805 * 23143187 / 199316789632) (-(32805 * 3489224 / 199316789632)) 0 0 s.k5))).add
    ((w (11 / 84) (-(55 * 29972135 / 822651844)) (55 * 7076736 / 822651844) 0 0 s.k6).add
    (w 0 (10 * 7414447 / 29380423) (-(10 * 829305 / 29380423)) 0 1 s.k7))
  have := this.const_add s.xOld
  refine this.congr_deriv ?_
  simp

/-- **C33** (smoothness across steps): after any sequence of calls the derivative of the interpolant at the previous
and at the current time is the right-hand side at the previous and at the current state.  So the interpolants of
successive steps join continuously differentiably. -/
theorem dopri5_dense_smooth {W : Type} {f : V → ℝ → V} {sys : Sys ℝ V W} (hf : SysFor f sys) (P : CtrlParams ℝ V)
    (cs : List (DenseCall ℝ)) (a a' : DopriDense ℝ V W) (rs : List (Option (ℝ × ℝ))) (s : LastStep ℝ V)
    (hv : a.DerivValid f) (hl : a.LastValid P f)
    (h : runSeq (fun c a => a.call P sys c) cs a = .ok rs a') (hs : a'.last = some s) (hne : a'.t ≠ s.tOld) :
    HasDerivAt (dopri5Interpolant s a'.t) (f s.xOld s.tOld) s.tOld ∧
      HasDerivAt (dopri5Interpolant s a'.t) (f a'.x a'.t) a'.t := by
  obtain ⟨dt, h1, h2, h3, h4⟩ := (dopri_dense_valid hf P cs a a' rs hv hl h).2 s hs
  have b := dopri5_interpolant_deriv_begin s a'.t hne
  have e := dopri5_interpolant_deriv_end s a'.t hne
  rw [h2] at b
  have k7 : s.k7 = f a'.x a'.t := by
    have hx := congrArg Dopri5Result.x h4
    have hk := congrArg Dopri5Result.k7 h4
    simp only at hx hk
    rw [hk, hx, h1]; rfl
  rw [k7] at e
  exact ⟨b, e⟩

end Real
end Verif
