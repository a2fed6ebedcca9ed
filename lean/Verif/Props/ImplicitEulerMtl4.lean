import Verif.Model.ImplicitEulerMtl4
import Verif.Props.ImplicitEuler
import Verif.Spec.MultistepRun
import Mathlib.Analysis.Normed.Module.Basic
import Mathlib.Analysis.Normed.Group.Constructions
import Mathlib.Tactic.Linarith
import Mathlib.Tactic.FieldSimp
import Mathlib.Tactic.Positivity

/-!
# C78: `implicit_euler_mtl4`

* `mtl4_linear`: for systems that are linear in the state the error of the equation of the implicit Euler step is exactly
  the residual of the linear solver,
* `mtl4_linear_accuracy`, `mtl4_linear_exact`: what follows for the solver's tolerance, and for an exact solver,
* `mtl4_first_newton`: for all systems the step is the first Newton iteration of `implicit_euler`,
* `mtl4_epsilon_ignored`: the tolerance of the constructor has no effect: the equation may be missed by any amount.
-/

set_option linter.unusedSectionVars false

namespace Verif
variable {K W Pm : Type} {n : ℕ} [Field K]

/-- `ieMtl4DoStep` satisfies what `ieMtl4Step` satisfies; after an exception the state is unchanged -/
theorem ieMtl4DoStep_sat {solver : LinearSolver K n} {sys : Sys K (Fin n → K) W} {jac : IeJac K W n} (hs : sys.Defined)
    (hj : jac.Defined) (hh : IeHalts sys jac) {f : (Fin n → K) → K → Fin n → K}
    {A : (Fin n → K) → K → Matrix (Fin n) (Fin n) K} (hf : Returns sys f)
    (hJ : ∀ x t w J w', jac x t w = .ok J w' → J = A x t) (t dt : K) (s : IeState K n W) :
    (ieMtl4DoStep solver sys jac t dt s).Sat
      (fun _ s' => s'.x = s.x + solver (dt • A s.x (t + dt) - 1) s.x (-dt • f s.x (t + dt)))
      (fun _ s' => s'.x = s.x) False := by
  have h : (ieMtl4Step solver sys jac s.x t dt s.world).Sat
      (fun y _ => y = s.x + solver (dt • A s.x (t + dt) - 1) s.x (-dt • f s.x (t + dt))) (fun _ _ => True) False := by
    unfold ieMtl4Step
    refine Res.Sat.bind ((call_sat (hs _ _ _) (hh.1 _ _ _) fun a w' h => hf _ _ _ _ _ h).mono (fun d w1 hd => ?_)
      (fun _ _ h => h) (fun h => h))
    refine Res.Sat.bind ((call_sat (hj _ _ _) (hh.2 _ _ _) fun a w' h => hJ _ _ _ _ _ h).mono (fun J w2 hJ' => ?_)
      (fun _ _ h => h) (fun h => h))
    subst hd hJ'
    exact rfl
  unfold ieMtl4DoStep
  cases hr : ieMtl4Step solver sys jac s.x t dt s.world with
  | ok y w => rw [hr] at h; exact h
  | err e w => exact rfl
  | ub => rw [hr] at h; exact h.elim
  | div => rw [hr] at h; exact h

/-- The error of the equation of the implicit Euler step. -/
def eulerDefect (f : (Fin n → K) → K → Fin n → K) (x : Fin n → K) (t dt : K) (y : Fin n → K) : Fin n → K :=
  y - x - dt • f y (t + dt)

/-- C78, systems that are linear in the state, `f( x , t ) = A( t ) x + c( t )`: `do_step` always comes back, and the error of
the equation of the implicit Euler step is exactly the residual `b - M m` of the linear system, whatever the solver does.
An exception of the user's functions leaves the state unchanged. -/
theorem mtl4_linear (solver : LinearSolver K n) {sys : Sys K (Fin n → K) W} {jac : IeJac K W n} (hs : sys.Defined)
    (hj : jac.Defined) (hh : IeHalts sys jac) (A : K → Matrix (Fin n) (Fin n) K) (c : K → Fin n → K)
    (hf : Returns sys fun x t => (A t).mulVec x + c t) (hJ : jac.Returns A) (t dt : K) (s : IeState K n W) :
    (ieMtl4DoStep solver sys jac t dt s).Sat
      (fun _ s' => ∃ b, b = -dt • ((A (t + dt)).mulVec s.x + c (t + dt)) ∧
        eulerDefect (fun x t => (A t).mulVec x + c t) s.x t dt s'.x =
          b - (dt • A (t + dt) - 1).mulVec (solver (dt • A (t + dt) - 1) s.x b))
      (fun _ s' => s'.x = s.x) False := by
  refine (ieMtl4DoStep_sat hs hj hh (A := fun _ t => A t) hf hJ t dt s).mono (fun _ s' h => ⟨_, rfl, ?_⟩) (fun _ _ h => h)
    (fun h => h)
  generalize solver (dt • A (t + dt) - 1) s.x (-dt • ((A (t + dt)).mulVec s.x + c (t + dt))) = m at h
  rw [h]
  unfold eulerDefect
  dsimp only
  rw [Matrix.sub_mulVec, Matrix.one_mulVec, Matrix.smul_mulVec, Matrix.mulVec_add]
  simp only [smul_add, neg_smul]
  abel

/-- C78: with a solver that solves the linear systems with matrices that can be inverted, the step is the implicit Euler step
for systems that are linear in the state, whenever its equation has exactly one solution. -/
theorem mtl4_linear_exact (solver : LinearSolver K n)
    (hsolver : ∀ (M' : Matrix (Fin n) (Fin n) K) x b, M'.det ≠ 0 → M'.mulVec (solver M' x b) = b)
    {sys : Sys K (Fin n → K) W} {jac : IeJac K W n} (hs : sys.Defined)
    (hj : jac.Defined) (hh : IeHalts sys jac) (A : K → Matrix (Fin n) (Fin n) K) (c : K → Fin n → K)
    (hf : Returns sys fun x t => (A t).mulVec x + c t) (hJ : jac.Returns A) (t dt : K)
    (hreg : (dt • A (t + dt) - 1).det ≠ 0) (s : IeState K n W) :
    (ieMtl4DoStep solver sys jac t dt s).Sat
      (fun _ s' => IsImplicitEuler (fun x t => (A t).mulVec x + c t) s.x t dt s'.x) (fun _ s' => s'.x = s.x) False := by
  refine (mtl4_linear solver hs hj hh A c hf hJ t dt s).mono (fun _ s' h => ?_) (fun _ _ h => h) (fun h => h)
  obtain ⟨b, -, h⟩ := h
  rw [hsolver _ _ _ hreg, sub_self] at h
  unfold eulerDefect at h
  unfold IsImplicitEuler
  rw [sub_sub, sub_eq_zero] at h
  exact h

/-- C78: a solver that stops at a residual of `tol` times the right hand side leaves an error of the equation of at most `tol`
times `‖ dt f( x , t + dt ) ‖` (in any of the norms below: the one of `Fin n → ℝ` is the maximum norm). -/
theorem mtl4_linear_accuracy (solver : LinearSolver ℝ n) (tol : ℝ)
    (hsolver : ∀ (M' : Matrix (Fin n) (Fin n) ℝ) x b, ‖b - M'.mulVec (solver M' x b)‖ ≤ tol * ‖b‖)
    {sys : Sys ℝ (Fin n → ℝ) W} {jac : IeJac ℝ W n} (hs : sys.Defined)
    (hj : jac.Defined) (hh : IeHalts sys jac) (A : ℝ → Matrix (Fin n) (Fin n) ℝ) (c : ℝ → Fin n → ℝ)
    (hf : Returns sys fun x t => (A t).mulVec x + c t) (hJ : jac.Returns A) (t dt : ℝ) (s : IeState ℝ n W) :
    (ieMtl4DoStep solver sys jac t dt s).Sat
      (fun _ s' => ‖eulerDefect (fun x t => (A t).mulVec x + c t) s.x t dt s'.x‖ ≤
        tol * ‖dt • ((A (t + dt)).mulVec s.x + c (t + dt))‖) (fun _ s' => s'.x = s.x) False := by
  refine (mtl4_linear solver hs hj hh A c hf hJ t dt s).mono (fun _ s' h => ?_) (fun _ _ h => h) (fun h => h)
  obtain ⟨b, hb, h⟩ := h
  rw [h]
  refine (hsolver _ _ _).trans_eq ?_
  rw [hb, neg_smul, norm_neg]

/-- C78, all systems: with exact solvers the step is the first Newton iteration of `implicit_euler`, from the same
calls of the user's functions. -/
theorem mtl4_first_newton (solver : LinearSolver K n) (hsolver : ∀ (M' : Matrix (Fin n) (Fin n) K) x b, M'.det ≠ 0 → M'.mulVec (solver M' x b) = b)
    (L : Lu K n Pm) (hL : L.Solves) (sys : Sys K (Fin n → K) W) (jac : IeJac K W n) (x : Fin n → K) (t dt : K) (w w' : W)
    (it : IeIter K n Pm) (h : ieFirst L sys jac x t dt w = .ok (some it) w')
    (hreg : ∀ J w1 w2, jac x (t + dt) w1 = .ok J w2 → (dt • J - 1).det ≠ 0) :
    ieMtl4Step solver sys jac x t dt w = .ok it.mx w' := by
  unfold ieFirst at h
  unfold ieMtl4Step
  cases h1 : sys x (t + dt) w with
  | ub => rw [M.bind_ub h1] at h; cases h
  | div => rw [M.bind_div h1] at h; cases h
  | err e w1 => rw [M.bind_err h1] at h; cases h
  | ok d w1 =>
    rw [M.bind_ok h1] at h ⊢
    cases h2 : jac x (t + dt) w1 with
    | ub => rw [M.bind_ub h2] at h; cases h
    | div => rw [M.bind_div h2] at h; cases h
    | err e w1 => rw [M.bind_err h2] at h; cases h
    | ok J w2 =>
      rw [M.bind_ok h2] at h ⊢
      have hdet := hreg J _ _ h2
      unfold ieSolve at h
      cases hF : L.factorize (dt • J - 1) L.start with
      | none => rw [hF] at h; cases h
      | some r =>
        rw [hF] at h
        cases h
        have hsol := hL.solves _ _ _ (dt • d) hF
        have hsol2 := hsolver _ x (-dt • d) hdet
        have hinj := Matrix.mulVec_injective_iff_isUnit.mpr ((Matrix.isUnit_iff_isUnit_det _).mpr (isUnit_iff_ne_zero.mpr hdet))
        have : solver (dt • J - 1) x (-dt • d) = -L.substitute r.1 r.2 (dt • d) := by
          apply hinj
          rw [hsol2, Matrix.mulVec_neg, hsol, neg_smul]
        show Res.ok _ _ = _
        rw [this]
        congr 1
        exact (sub_eq_add_neg _ _).symm

/-! ## Non-vacuity, and the tolerance -/

/-- a solver that fulfils the contract: the inverse matrix -/
noncomputable def inverseSolver (K : Type) [Field K] (n : ℕ) : LinearSolver K n := fun M' _ b => M'⁻¹.mulVec b

theorem inverseSolver_exact (n : ℕ) (M' : Matrix (Fin n) (Fin n) K) (x b : Fin n → K) (h : M'.det ≠ 0) :
    M'.mulVec (inverseSolver K n M' x b) = b := by
  rw [inverseSolver, Matrix.mulVec_mulVec, Matrix.mul_nonsing_inv _ (isUnit_iff_ne_zero.mpr h), Matrix.one_mulVec]

/-- two equations: a step of `x' = A x` -/
example (s : IeState ℚ 2 Unit) :
    (ieMtl4DoStep (inverseSolver ℚ 2) twoSys twoJac 0 1 s).Sat
      (fun _ s' => IsImplicitEuler (fun x _ => twoByTwo.mulVec x + 0) s.x 0 1 s'.x) (fun _ s' => s'.x = s.x) False := by
  have h1 : twoSys.Defined := fun _ _ _ => (fun h => nomatch h)
  have h2 : twoJac.Defined := fun _ _ _ => (fun h => nomatch h)
  have h3 : IeHalts twoSys twoJac := ⟨fun _ _ _ => (fun h => nomatch h), fun _ _ _ => (fun h => nomatch h)⟩
  refine mtl4_linear_exact (inverseSolver ℚ 2) (inverseSolver_exact 2) h1 h2 h3 (fun _ => twoByTwo) (fun _ => 0) ?_ ?_ 0 1 ?_ s
  · intro x t w v w' h; cases h; simp
  · intro x t w v w' h; cases h; rfl
  · have h1 := isUnit_iff_ne_zero.1 implicit_euler_exits.1
    have h2 : ((1 : ℚ) • twoByTwo - 1) = -(1 - (1 : ℚ) • twoByTwo) := by abel
    rw [h2, Matrix.det_neg]
    simpa using h1

/-- `x' = x²` and its Jacobian -/
noncomputable def squareSys : Sys ℝ (Fin 1 → ℝ) Unit := pureSys fun x _ => fun _ => x 0 ^ 2
noncomputable def squareJac : IeJac ℝ Unit 1 := fun x _ => pure !![2 * x 0]

/-- C78 is false for the tolerance: the constructor's `epsilon` has no effect.  For `x' = x²` and every `eps` there is a state
from which the step, with an exact linear solver, misses the equation `y = x + dt f( y , t + dt )` by more than `eps`
(`implicit_euler` iterates until the correction is small, see `implicit_euler_converged`). -/
theorem mtl4_epsilon_ignored (eps : ℝ) : ∃ (x y : Fin 1 → ℝ),
    ieMtl4DoStep (inverseSolver ℝ 1) squareSys squareJac 0 1 ⟨x, ()⟩ = .ok () ⟨y, ()⟩ ∧
      eps < |eulerDefect (fun x _ => fun _ => x 0 ^ 2) x 0 1 y 0| := by
  set R : ℝ := 3 * (|eps| + 1) with hR
  have hRpos : 3 ≤ R := by have := abs_nonneg eps; linarith
  refine ⟨fun _ => -R, fun _ => -R + R ^ 2 / (1 + 2 * R), ?_, ?_⟩
  · unfold ieMtl4DoStep ieMtl4Step squareSys squareJac pureSys
    have hm : inverseSolver ℝ 1 ((1 : ℝ) • !![2 * -R] - 1) (fun _ => -R) (-(1 : ℝ) • fun _ => (-R) ^ 2) =
        fun _ => R ^ 2 / (1 + 2 * R) := by
      have hdet : ((1 : ℝ) • !![2 * -R] - 1 : Matrix (Fin 1) (Fin 1) ℝ).det ≠ 0 := by
        simp
        intro h
        linarith
      have h := inverseSolver_exact 1 _ (fun _ => -R) (-(1 : ℝ) • fun _ => (-R) ^ 2) hdet
      funext i
      rw [Subsingleton.elim i 0]
      generalize inverseSolver ℝ 1 _ _ _ = m at h ⊢
      have h0 := congrFun h 0
      simp [Matrix.mulVec, dotProduct] at h0
      have hne : (1 + 2 * R) ≠ 0 := by positivity
      rw [eq_div_iff hne]
      linarith
    show (Res.ok () _ : Res _ _) = _
    congr 2
    show (fun _ => -R) + _ = _
    rw [hm]
    rfl
  · have hne : (0 : ℝ) < 1 + 2 * R := by positivity
    have h1 : eulerDefect (fun x _ => fun _ => x 0 ^ 2) (fun _ : Fin 1 => -R) 0 1 (fun _ => -R + R ^ 2 / (1 + 2 * R)) 0 =
        -(R ^ 2 / (1 + 2 * R)) ^ 2 := by
      simp only [eulerDefect, Pi.sub_apply, Pi.smul_apply, smul_eq_mul]
      field_simp
      ring
    rw [h1, abs_neg, abs_of_nonneg (by positivity)]
    have h2 : R / 3 ≤ R ^ 2 / (1 + 2 * R) := by
      rw [le_div_iff₀ hne]; nlinarith
    have h3 : R / 3 = |eps| + 1 := by rw [hR]; ring
    rw [h3] at h2
    have h4 := le_abs_self eps
    have h5 := abs_nonneg eps
    nlinarith

end Verif
