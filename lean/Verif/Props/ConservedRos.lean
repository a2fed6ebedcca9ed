import Verif.Props.Conserved
import Verif.Props.RosenbrockDense
import Verif.Spec.RosDenseRun
import Verif.Spec.RosenbrockRun
import Verif.Lemmas.ConservedDense

/-!
# C76 for `rosenbrock4`, `rosenbrock4_controller` and `rosenbrock4_dense_output`

The stages are solutions of linear systems.  If the Jacobian the user supplies respects the conservation law, which the exact one does, then the solution of
such a system with a conserving right-hand side is conserving again.
-/

namespace Verif
variable {K V U W Mat : Type} [Field K] [AddCommGroup V] [Module K V] [AddCommGroup U] [Module K U] {l : V →ₗ[K] U} {sys : Sys K V W} {c : U}

/-- Jacobian and linear solver respect the conservation law: the derivative with respect to the time is annihilated by `l`, and so is the solution of every
linear system with the Jacobian whose right-hand side is. -/
def JacobianConserves (l : V →ₗ[K] U) (solve : K → Mat → V → V) (jac : Jac K V W Mat) : Prop :=
  ∀ x t w J d w', jac x t w = .ok (J, d) w' → l d = 0 ∧ ∀ s b, l b = 0 → l (solve s J b) = 0

/-- This is so for every system that is really solved, if the Jacobian maps into the kernel of `l`. -/
theorem Solves.conserves {solve : K → (V →ₗ[K] V) → V → V} {s : K} {J : V →ₗ[K] V} (hs : Solves solve s J) (hJ : ∀ v, l (J v) = 0) {b : V} (hb : l b = 0) :
    l (solve s J b) = 0 := by
  have key : ∀ b, s • l (solve s J b) = l b := fun b => by
    have := congrArg l (hs b)
    rwa [map_sub, map_smul, hJ, sub_zero] at this
  rcases eq_or_ne s 0 with rfl | h0
  · have := key (solve 0 J b)
    rw [zero_smul] at this
    exact this.symm
  · have := key b
    rw [hb] at this
    exact (smul_eq_zero.1 this).resolve_left h0

variable {solve : K → Mat → V → V} {jac : Jac K V W Mat}

theorem rosStep_linear (C : RosCoef K) (hl : InKernel l sys) (hj : JacobianConserves l solve jac) (x : V) (t dt : K) (w : W) :
    (rosStep C solve sys jac x t dt w).Keeps (fun r _ => l (r.x K) = l x ∧ l r.g1 = 0 ∧ l r.g2 = 0 ∧ l r.g3 = 0 ∧ l r.g4 = 0 ∧ l r.g5 = 0) fun _ => True := by
  unfold rosStep
  refine (hl.call _ _ _).bind fun k1 w h1 => Res.Keeps.bind (R := fun r _ => l r.2 = 0 ∧ ∀ s b, l b = 0 → l (solve s r.1 b) = 0) ?_ ?_
  · cases e : jac x t w with
    | ok r w' => exact hj x t w r.1 r.2 w' e
    | err _ _ => trivial
    | ub => trivial
    | div => trivial
  · rintro ⟨J, d⟩ w ⟨hd, hs⟩
    dsimp only at hd hs ⊢
    have g1 := hs (lit 1 / C.gamma / dt) _ (map_lin_zero (l := l) [(lit 1, k1), (dt * C.d1, d)] (by simp [h1, hd]))
    set G1 := solve (lit 1 / C.gamma / dt) J (lin [(lit 1, k1), (dt * C.d1, d)])
    refine (hl.call _ _ _).bind fun k2 w h2 => ?_
    have g2 := hs (lit 1 / C.gamma / dt) _ (map_lin_zero (l := l) [(lit 1, k2), (dt * C.d2, d), (C.c21 / dt, G1)] (by simp [h2, hd, g1]))
    set G2 := solve (lit 1 / C.gamma / dt) J (lin [(lit 1, k2), (dt * C.d2, d), (C.c21 / dt, G1)])
    refine (hl.call _ _ _).bind fun k3 w h3 => ?_
    have g3 := hs (lit 1 / C.gamma / dt) _ (map_lin_zero (l := l) [(lit 1, k3), (dt * C.d3, d), (C.c31 / dt, G1), (C.c32 / dt, G2)]
      (by simp [h3, hd, g1, g2]))
    set G3 := solve (lit 1 / C.gamma / dt) J (lin [(lit 1, k3), (dt * C.d3, d), (C.c31 / dt, G1), (C.c32 / dt, G2)])
    refine (hl.call _ _ _).bind fun k4 w h4 => ?_
    have g4 := hs (lit 1 / C.gamma / dt) _ (map_lin_zero (l := l) [(lit 1, k4), (dt * C.d4, d), (C.c41 / dt, G1), (C.c42 / dt, G2), (C.c43 / dt, G3)]
      (by simp [h4, hd, g1, g2, g3]))
    set G4 := solve (lit 1 / C.gamma / dt) J (lin [(lit 1, k4), (dt * C.d4, d), (C.c41 / dt, G1), (C.c42 / dt, G2), (C.c43 / dt, G3)])
    refine (hl.call _ _ _).bind fun k5 w h5 => ?_
    have g5 := hs (lit 1 / C.gamma / dt) _ (map_lin_zero (l := l) [(lit 1, k5), (C.c51 / dt, G1), (C.c52 / dt, G2), (C.c53 / dt, G3), (C.c54 / dt, G4)]
      (by simp [h5, g1, g2, g3, g4]))
    set G5 := solve (lit 1 / C.gamma / dt) J (lin [(lit 1, k5), (C.c51 / dt, G1), (C.c52 / dt, G2), (C.c53 / dt, G3), (C.c54 / dt, G4)])
    refine (hl.call _ _ _).bind fun k6 w h6 => ?_
    have g6 := hs (lit 1 / C.gamma / dt) _ (map_lin_zero (l := l) [(lit 1, k6), (C.c61 / dt, G1), (C.c62 / dt, G2), (C.c63 / dt, G3), (C.c64 / dt, G4),
      (C.c65 / dt, G5)] (by simp [h6, g1, g2, g3, g4, g5]))
    refine ⟨?_, g1, g2, g3, g4, g5⟩
    show l (lin _) = l x
    rw [map_lin_cons _ _ (by simp [g6]), map_lin_cons _ _ (by simp [g5]), map_lin_cons _ _ (by simp [g1, g2, g3, g4])]

/-- **C76**, `rosenbrock4` with any coefficients. -/
theorem rosenbrock_linear_conserved (C : RosCoef K) (hl : InKernel l sys) (hj : JacobianConserves l solve jac) (c : U) :
    BasicConserves (stepperObject (K := K) fun x t dt => rosDoStep1 C solve sys jac x t dt) (fun _ => True) fun x => l x = c := by
  refine basic_conserves (J := fun _ _ => True) (stepperObject_keeps (fun h t dt h' _ hP he => ⟨trivial, ?_⟩) fun _ _ _ _ _ => trivial)
    fun _ _ _ _ => trivial
  have hs := rosStep_linear C hl hj (h.state (.user 0)) t dt h.world
  have H := (ros_do_step C solve sys jac 0 0 0 t dt h).2
  have he' : rosDoStep3 C solve sys jac (.user 0) t (.user 0) dt h = .ok () h' := he
  cases e : rosStep C solve sys jac (h.state (.user 0)) t dt h.world with
  | ok r w =>
    rw [e] at hs H
    obtain ⟨h'', e1, -, e2, -⟩ := H
    rw [he'] at e1
    obtain ⟨-, rfl⟩ := Res.ok.inj e1
    rw [e2, hs.1, hP]
  | err _ _ => rw [e] at H; obtain ⟨_, e1, -⟩ := H; rw [he'] at e1; cases e1
  | ub => rw [e] at H; rw [he'] at H; cases H
  | div => rw [e] at H; rw [he'] at H; cases H

/-- **C76**, `rosenbrock4_controller`, with any error measure, coefficients and upper bound of the step size. -/
theorem controlled_rosenbrock_linear_conserved (P : RosParams K V) (C : RosCoef K) (hl : InKernel l sys) (hj : JacobianConserves l solve jac) (c : U) :
    ControlledConserves (controlledObject (K := K) (rosTry4 P C solve sys jac)) (fun _ => True) fun x => l x = c := by
  refine controlled_conserves (J := fun _ _ => True) (controlledObject_keeps (fun h t dt r h' _ hP he => ⟨trivial, ?_⟩) fun _ _ _ _ _ => trivial)
    fun _ _ _ _ => trivial
  rcases ros_try_result P C solve sys jac 0 t dt h h' r he with ⟨-, -, -, e⟩ | ⟨-, s, w, err, e1, -, -, -, -, -, -, e⟩
  · rw [e, hP]
  · have hs := rosStep_linear C hl hj (h.state (.user 0)) t dt h.world
    rw [e1] at hs
    rw [e]
    split
    · rw [hs.1, hP]
    · exact hP

/-! ## Dense output -/

/-- The current state. -/
def RosNow (l : V →ₗ[K] U) (c : U) (h : Heap K V W) : Prop := l (currentState h) = c

/-- Also the last step is as it should be. -/
def RosReady (l : V →ₗ[K] U) (c : U) (h : Heap K V W) : Prop :=
  RosNow l c h ∧ l (previousState h) = c ∧ l (h.state rCont3) = 0 ∧ l (h.state rCont4) = 0

theorem rosDenseDoStep_linear (P : RosParams K V) (C : RosCoef K) (hl : InKernel l sys) (hj : JacobianConserves l solve jac) (h : Heap K V W)
    (hq : RosNow l c h) : (rosDenseDoStep P C solve sys jac h).Keeps (fun _ h' => RosReady l c h') fun _ => True := by
  let a : RosDense K V W := ⟨currentState h, currentTime h, currentTimeStep h, rosMem h, none, fun n => h.state (.user n), h.world⟩
  have hR : a.InHeap C h := ⟨rfl, rfl, rfl, rfl, (fun _ e => nomatch e), fun _ => rfl, rfl⟩
  have hs := ros_dense_do_step P C solve sys jac h a hR
  cases e1 : rosDenseDoStep P C solve sys jac h with
  | err _ _ => trivial
  | ub => trivial
  | div => trivial
  | ok r h' =>
    cases e2 : a.step P C solve sys jac with
    | err _ _ => rw [e1, e2] at hs; exact hs.elim
    | ub => rw [e1, e2] at hs; exact hs.elim
    | div => rw [e1, e2] at hs; exact hs.elim
    | ok r' a' =>
      rw [e1, e2] at hs
      obtain ⟨-, R⟩ := hs
      obtain ⟨-, -, dt, s, w, -, e3, e4, -, e5⟩ := ros_dense_step_spec P C solve sys jac a a' r' e2
      have hk := rosStep_linear C hl hj a.x a.t dt w
      rw [e3] at hk
      obtain ⟨g, g1, g2, g3, g4, g5⟩ := hk
      obtain ⟨l1, -, l3, l4⟩ := R.last _ e5
      have hx : l a.x = c := hq
      refine ⟨?_, ?_, ?_, ?_⟩
      · show l _ = c
        rw [R.x, e4, g, hx]
      · rw [l1]; exact hx
      · rw [l3]; exact map_lin_zero _ (by simp [g1, g2, g3, g4, g5])
      · rw [l4]; exact map_lin_zero _ (by simp [g1, g2, g3, g4, g5])

theorem rosDenseCalcState_linear (h : Heap K V W) (hq : RosReady l c h) (t : K) :
    ∃ h', rosDenseCalcState t (.user 0) h = .ok () h' ∧ l (h'.state (.user 0)) = c := by
  refine ⟨_, rfl, ?_⟩
  obtain ⟨h1, h2, h3, h4⟩ := hq
  have h1' : l (h.state (getCurrent (h.flag mCurX1))) = c := h1
  have h2' : l (h.state (getOld (h.flag mCurX1))) = c := h2
  simp only [Heap.set_state_self, map_lin, List.map_cons, List.map_nil, List.sum_cons, List.sum_nil, h1', h2', h3, h4, smul_zero, add_zero, ← add_smul]
  simp [lit]

theorem rosDenseObject_keeps (P : RosParams K V) (C : RosCoef K) (hl : InKernel l sys) (hj : JacobianConserves l solve jac) :
    DenseKeeps (rosDenseObject P C solve sys jac) (RosNow l c) (RosReady l c) fun x => l x = c where
  init q x t dt w hx := by
    refine ⟨?_, ?_, ?_, rfl⟩
    · show l _ = c
      rw [← hx]
      simp [currentState, Heap.putNum, Heap.withWorld, mCurX1]
    · simp [rosDenseObject, currentTime, Heap.putNum_num, mT, mDt]
    · simp [rosDenseObject, currentTimeStep, Heap.putNum_num, mT, mDt]
  step q w hq := by
    have := rosDenseDoStep_linear (c := c) P C hl hj (q.withWorld w.1) hq
    simp only [rosDenseObject]
    cases e : rosDenseDoStep P C solve sys jac (q.withWorld w.1) with
    | err _ _ => exact rfl
    | ub => trivial
    | div => trivial
    | ok r h' =>
      rw [e] at this
      exact ⟨this, rfl⟩
  interp q t w hq := by
    obtain ⟨h', e, hv⟩ := rosDenseCalcState_linear (q.withWorld w.1) hq t
    simp only [rosDenseObject, e]
    exact ⟨hv, rfl⟩
  ready q h := h.1
  cur q h := h

/-- **C76**, `rosenbrock4_dense_output`, whatever the stepper was used for before. -/
theorem dense_rosenbrock_linear_conserved (P : RosParams K V) (C : RosCoef K) (hl : InKernel l sys) (hj : JacobianConserves l solve jac) (c : U) :
    DenseConserves (rosDenseObject P C solve sys jac) fun x => l x = c :=
  dense_conserves (rosDenseObject_keeps P C hl hj)

/-! ## The hypotheses can be met -/

/-- The Jacobian of the reaction with rate `k`, as the user supplies it. -/
noncomputable def reactionJac (k : ℝ) : Jac ℝ (ℝ × ℝ) ℕ ((ℝ × ℝ) →ₗ[ℝ] (ℝ × ℝ)) := fun x _ n =>
  .ok ((LinearMap.fst ℝ ℝ ℝ).smulRight (-(k * x.2), k * x.2) + (LinearMap.snd ℝ ℝ ℝ).smulRight (-(k * x.1), k * x.1), 0) n

open Classical in
/-- Exact solution where there is one; the right-hand side elsewhere. -/
noncomputable def exactSolve (s : ℝ) (J : (ℝ × ℝ) →ₗ[ℝ] (ℝ × ℝ)) (b : ℝ × ℝ) : ℝ × ℝ :=
  if IsUnit (s • (1 : Module.End ℝ (ℝ × ℝ)) - J) then Ring.inverse (s • (1 : Module.End ℝ (ℝ × ℝ)) - J) b else b

theorem exactSolve_solves (s : ℝ) (J : (ℝ × ℝ) →ₗ[ℝ] (ℝ × ℝ)) (h : IsUnit (s • (1 : Module.End ℝ (ℝ × ℝ)) - J)) : Solves exactSolve s J := by
  intro b
  unfold exactSolve
  rw [if_pos h]
  have := congrArg (fun T : Module.End ℝ (ℝ × ℝ) => T b) (Ring.mul_inverse_cancel _ h)
  simpa using this

theorem reaction_jacobian (k : ℝ) : JacobianConserves totalAmount exactSolve (reactionJac k) := by
  intro x t n J d n' e
  obtain ⟨e, -⟩ := Res.ok.inj e
  obtain ⟨rfl, rfl⟩ := Prod.mk.inj e
  refine ⟨map_zero _, fun s b hb => ?_⟩
  by_cases h : IsUnit (s • (1 : Module.End ℝ (ℝ × ℝ)) - ((LinearMap.fst ℝ ℝ ℝ).smulRight (-(k * x.2), k * x.2) +
      (LinearMap.snd ℝ ℝ ℝ).smulRight (-(k * x.1), k * x.1)))
  · exact (exactSolve_solves _ _ h).conserves (fun v => by simp [totalAmount]; ring) hb
  · unfold exactSolve
    rw [if_neg h]
    exact hb

/-- The Jacobian is the derivative of the right-hand side: here at `( 1 , 2 )` in both directions. -/
example (k : ℝ) : ∃ J, reactionJac k (1, 2) 0 0 = .ok (J, 0) 0 ∧ J (1, 0) = (-(2 * k), 2 * k) ∧ J (0, 1) = (-k, k) := by
  refine ⟨_, rfl, ?_, ?_⟩ <;> simp [mul_comm]

example (k c : ℝ) (P : RosParams ℝ (ℝ × ℝ)) :
    ControlledConserves (controlledObject (rosTry4 P defaultRosenbrock exactSolve (countSys fun (x : ℝ × ℝ) _ => (-(k * x.1 * x.2), k * x.1 * x.2))
      (reactionJac k))) (fun _ => True) (fun x => totalAmount x = c) ∧
    DenseConserves (rosDenseObject P defaultRosenbrock exactSolve (countSys fun (x : ℝ × ℝ) _ => (-(k * x.1 * x.2), k * x.1 * x.2))
      (reactionJac k)) fun x => totalAmount x = c :=
  ⟨controlled_rosenbrock_linear_conserved P _ (reaction_inKernel fun _ => k) (reaction_jacobian k) c,
    dense_rosenbrock_linear_conserved P _ (reaction_inKernel fun _ => k) (reaction_jacobian k) c⟩

end Verif
