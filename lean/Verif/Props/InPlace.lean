import Verif.Lemmas.Fsal
import Mathlib.Tactic.NormNum
import Mathlib.Algebra.Order.Field.Rat

/-!
# C27, C28 (first part), C49: in-place and out-of-place stepping

All statements hold for an arbitrary arithmetic on the number type (no algebraic law is used), for system
functions with side effects that may throw or not return, and for `in` and `out` being the same object.
-/

set_option linter.unusedSectionVars false

namespace Verif
variable {K V W : Type} [Add K] [Sub K] [Mul K] [Div K] [IntCast K] [Neg K] [StateOps K V]

/-- C27: `do_step( sys , x , t , dt )` leaves in `x` what `do_step( sys , in , t , out , dt )` leaves in `out`,
and neither touches anything else of the user's. -/
theorem do_step_inplace_agrees (s : ExplicitStepper K) (hs : s.WellFormed) (sys : Sys K V W) (x out : ℕ)
    (t dt : K) (h : Heap K V W) :
    SameOutcome (doStep1 s.impl sys (.user x) t dt h) (.user x)
      (doStep3 s.impl sys (.user x) t (.user out) dt h) (.user out) ∧
    OnlyWrites h (doStep1 s.impl sys (.user x) t dt h) (.user x) ∧
    OnlyWrites h (doStep3 s.impl sys (.user x) t (.user out) dt h) (.user out) := by
  have h1 := doStep1_implements s hs sys (.user x) t dt h (ownedBy_user _ _)
  have h3 := doStep3_implements s hs sys (.user x) (.user out) t dt h (ownedBy_user _ _)
  exact ⟨h1.sameOutcome h3 (ownedBy_user _ _) (ownedBy_user _ _) (by simp), h1.onlyWrites, h3.onlyWrites⟩

/-- C27: the versions with a caller-supplied derivative, called after `sys( x , dxdt , t )`, give the same
result.  `out` may even be the object that holds the derivative. -/
theorem do_step_dxdt_agrees (s : ExplicitStepper K) (hs : s.WellFormed) (sys : Sys K V W) (x out d : ℕ)
    (hd : x ≠ d) (t dt : K) (h : Heap K V W) (k : V) (w : W) (hk : sys (h.state (.user x)) t h.world = .ok k w) :
    SameOutcome (doStep1 s.impl sys (.user x) t dt h) (.user x)
      (doStep2 s.impl sys (.user x) (.user d) t dt (h.put (.user d) k w)) (.user x) ∧
    SameOutcome (doStep1 s.impl sys (.user x) t dt h) (.user x)
      (doStep4 s.impl sys (.user x) (.user d) t (.user out) dt (h.put (.user d) k w)) (.user out) := by
  have hx : Loc.user x ≠ .user d := by simpa using hd
  have h1 := doStep1_implements s hs sys (.user x) t dt h (ownedBy_user _ _)
  have key : ∀ o, SameOutcome (doStep1 s.impl sys (.user x) t dt h) (.user x)
      (doStep4 s.impl sys (.user x) (.user d) t (.user o) dt (h.put (.user d) k w)) (.user o) := by
    intro o
    have h4 := impl_implements s hs sys (.user x) (.user d) (.user o) t dt (h.put (.user d) k w)
      (ownedBy_user _ _) (ownedBy_user _ _)
    rw [Heap.put_state_ne _ _ _ hx, Heap.put_state_self] at h4
    unfold Implements at h1 h4
    rw [M.bind_apply, hk] at h1
    simp only [Heap.put_world] at h4
    unfold doStep4
    cases hr : s.recipe sys (h.state (.user x)) k t dt w with
    | ok v w' =>
      simp only [hr] at h1 h4
      obtain ⟨h', a1, a2, a3⟩ := h1
      obtain ⟨h'', b1, b2, b3⟩ := h4
      rw [a1, b1]
      refine ⟨?_, by rw [a2, b2]⟩
      rw [(a3 (.user x) (ownedBy_user _ _)).1, (b3 (.user o) (ownedBy_user _ _)).1]
      simp
    | err e w' =>
      simp only [hr] at h1 h4
      obtain ⟨h', a1, a2, a3⟩ := h1
      obtain ⟨h'', b1, b2, b3⟩ := h4
      rw [a1, b1]
      exact ⟨rfl, by rw [a2, b2]⟩
    | ub => simp only [hr] at h1 h4; rw [h1, h4]; trivial
    | div => simp only [hr] at h1 h4; rw [h1, h4]; trivial
  exact ⟨key x, key out⟩

/-- C27: the versions with error estimate agree with each other, both in the new state and in the estimate,
and compute the same new state as the versions without error estimate. -/
theorem do_step_err_inplace_agrees (s : ErrorStepper K) (hs : s.WellFormed) (sys : Sys K V W) (x out e e' : ℕ)
    (he : x ≠ e) (he' : out ≠ e') (t dt : K) (h : Heap K V W) :
    SameOutcome (doStep5 s.errImpl sys (.user x) t dt (.user e) h) (.user x)
      (doStep7 s.errImpl sys (.user x) t (.user out) dt (.user e') h) (.user out) ∧
    SameOutcome (doStep5 s.errImpl sys (.user x) t dt (.user e) h) (.user e)
      (doStep7 s.errImpl sys (.user x) t (.user out) dt (.user e') h) (.user e') ∧
    SameOutcome (doStep5 s.errImpl sys (.user x) t dt (.user e) h) (.user x)
      (doStep1 s.toExplicit.impl sys (.user x) t dt h) (.user x) := by
  have n1 : Loc.user x ≠ .user e := by simpa using he
  have n2 : Loc.user out ≠ .user e' := by simpa using he'
  have h5 := doStep5_implements s hs sys (.user x) (.user e) t dt h (ownedBy_user _ _)
  have h7 := doStep7_implements s hs sys (.user x) (.user out) (.user e') t dt h (ownedBy_user _ _) (ownedBy_user _ _)
  have h1 := doStep1_implements s.toExplicit (toExplicit_wf s hs) sys (.user x) t dt h (ownedBy_user _ _)
  refine ⟨h5.sameOutcome h7 (ownedBy_user _ _) (ownedBy_user _ _) fun a => ?_,
    h5.sameOutcome h7 (ownedBy_user _ _) (ownedBy_user _ _) fun a => by simp, ?_⟩
  · simp [Heap.set_state_apply, n1, n2]
  · have e1 : (sys (h.state (.user x)) t >>= fun k => s.errRecipe sys (h.state (.user x)) k t dt) >>=
        (fun r => pure r.1) =
        (sys (h.state (.user x)) t >>= fun k => s.toExplicit.recipe sys (h.state (.user x)) k t dt) := by
      simp only [bind_assoc, errRecipe_fst]
    rw [← e1] at h1
    unfold Implements at h5 h1
    rw [M.bind_apply] at h1
    generalize hS : (sys (h.state (.user x)) t >>= fun k => s.errRecipe sys (h.state (.user x)) k t dt) = S at *
    cases hr : S h.world with
    | ok v w' =>
      simp only [hr, M.pure_apply] at h1 h5
      obtain ⟨h', a1, a2, a3⟩ := h1
      obtain ⟨h'', b1, b2, b3⟩ := h5
      rw [a1, b1]
      refine ⟨?_, by rw [a2, b2]⟩
      rw [(a3 (.user x) (ownedBy_user _ _)).1, (b3 (.user x) (ownedBy_user _ _)).1]
      simp [Heap.set_state_apply, n1]
    | err e w' =>
      simp only [hr] at h1 h5
      obtain ⟨h', a1, a2, a3⟩ := h1
      obtain ⟨h'', b1, b2, b3⟩ := h5
      rw [a1, b1]
      exact ⟨rfl, by rw [a2, b2]⟩
    | ub => simp only [hr] at h1 h5; rw [h1, h5]; trivial
    | div => simp only [hr] at h1 h5; rw [h1, h5]; trivial

/-- C27 for `runge_kutta_dopri5`: in-place and out-of-place `do_step` from the same stepper state agree, and
when they return they have changed nothing but their result. -/
theorem dopri5_inplace_agrees (resized : Bool) (sys : Sys K V W) (x out : ℕ) (t dt : K) (h : Heap K V W) :
    SameOutcome (fsalStep1 dopri5Impl resized sys (.user x) t dt h) (.user x)
      (fsalStep3 dopri5Impl resized sys (.user x) t (.user out) dt h) (.user out) ∧
    (∀ h', fsalStep1 dopri5Impl resized sys (.user x) t dt h = .ok () h' →
      ∀ n, n ≠ x → h'.state (.user n) = h.state (.user n)) ∧
    (∀ h', fsalStep3 dopri5Impl resized sys (.user x) t (.user out) dt h = .ok () h' →
      ∀ n, n ≠ out → h'.state (.user n) = h.state (.user n)) := by
  have h1 := dopri5Step3_implements resized sys (.user x) (.user x) t dt h (ownedBy_user _ _) (ownedBy_user _ _)
  have h3 := dopri5Step3_implements resized sys (.user x) (.user out) t dt h (ownedBy_user _ _) (ownedBy_user _ _)
  have frame : ∀ o, Implements [.rk, .base] h (fsalStep3 dopri5Impl resized sys (.user x) t (.user o) dt)
      (fsalDeriv (resized || h.flag mFirstCall) (h.state mDxdt) sys (h.state (.user x)) t >>= fun k =>
        dopri5Step sys (h.state (.user x)) k t dt >>= fun r => pure r.x)
      (fun v => [(.user o, v)]) [.user o] →
      ∀ h', fsalStep3 dopri5Impl resized sys (.user x) t (.user o) dt h = .ok () h' →
      ∀ n, n ≠ o → h'.state (.user n) = h.state (.user n) := by
    intro o H h' hh n hn
    unfold Implements at H
    have hne : Loc.user n ≠ .user o := by simpa using hn
    split at H
    · obtain ⟨h'', a1, a2, a3⟩ := H
      rw [hh] at a1
      simp only [Res.ok.injEq, true_and] at a1
      subst a1
      rw [(a3 (.user n) (ownedBy_user _ _)).1]
      exact Heap.set_state_ne _ _ hne
    · obtain ⟨h'', a1, a2, a3⟩ := H
      rw [hh] at a1; cases a1
    · rw [hh] at H; cases H
    · rw [hh] at H; cases H
  exact ⟨h1.sameOutcome h3 (ownedBy_user _ _) (ownedBy_user _ _) (by simp), frame x h1, frame out h3⟩

/-! ## C28: `extrapolation_stepper` -/

/-- C28, the part that holds: the out-of-place version of `extrapolation_stepper` computes the extrapolation
recipe, for every output object other than the input. -/
theorem extrapolation_outofplace_partial (kmax : ℕ) (hk : kmax < 32767) (sys : Sys K V W) (x out : ℕ)
    (hne : x ≠ out) (t dt : K) (h : Heap K V W) :
    Implements [.base, .midp, .extrap] h (doStep3 (extrapolationImpl kmax) sys (.user x) t (.user out) dt)
      (sys (h.state (.user x)) t >>= fun k => extrapolationStep kmax sys (h.state (.user x)) k t dt)
      (fun v => [(.user out, v)]) [.user out] := by
  unfold doStep3
  refine Implements.sys (by simp [mDxdt, Loc.ownedBy]) rfl fun k w => ?_
  have := (extrapolation_implements kmax hk sys (.user x) mDxdt (.user out) t dt (h.put mDxdt k w)
    (ownedBy_user _ _) (by simp [mDxdt, Loc.ownedBy]) (ownedBy_user _ _) (by simpa using hne)
    (by simp [mDxdt])).mono_own (os' := [.base, .midp, .extrap]) (by simp)
  rwa [Heap.put_state_ne _ _ _ (by simp [mDxdt]), Heap.put_state_self] at this

/-- C28, the part that holds: `do_step_dxdt_impl( sys , x , dxdt , t , dt )` (used by
`adams_bashforth::initialize`) works in place. -/
theorem extrapolation_io_partial (kmax : ℕ) (hk : kmax < 32767) (sys : Sys K V W) (x d : ℕ)
    (t dt : K) (h : Heap K V W) :
    Implements [.midp, .extrap] h (extrapolationIo kmax sys (.user x) (.user d) t dt)
      (extrapolationStep kmax sys (h.state (.user x)) (h.state (.user d)) t dt) (fun v => [(.user x, v)]) [] :=
  extrapolationIo_implements kmax hk sys (.user x) (.user d) t dt h (ownedBy_user _ _) (ownedBy_user _ _)

/-- All objects zero. -/
def zeroHeap : Heap ℚ ℚ Unit := ⟨fun _ => 0, fun _ => 0, fun _ => false, fun _ => 0, ()⟩

theorem owner_eq (o o' : Owner) (h : o ≠ o') : (o = o') = False := by simp [h]
theorem user_eq_priv (n : ℕ) (o : Owner) (i : ℕ) : (Loc.user n = Loc.priv o i) = False := by simp
theorem priv_eq_user (n : ℕ) (o : Owner) (i : ℕ) : (Loc.priv o i = Loc.user n) = False := by simp

/-- evaluates a stepper call on rational data, statement by statement -/
macro "step_eval" "[" ts:Lean.Parser.Tactic.simpLemma,* "]" : tactic =>
  `(tactic| norm_num [M.bind_apply, M.pure_apply, zeroHeap, linTo, linSwap, callSys, copyTo, lin, lit, frac,
    Heap.set_state_apply, Heap.put_state_apply, mpX0, mpX1, mpDxdt, exTable, mDxdt, mXTmp, mK, mF,
    user_eq_priv, priv_eq_user, owner_eq .base .rk (by simp), owner_eq .base .midp (by simp),
    owner_eq .rk .base (by simp), owner_eq .midp .base (by simp), owner_eq .extrap .midp (by simp),
    owner_eq .midp .extrap (by simp), owner_eq .base .extrap (by simp), owner_eq .extrap .base (by simp),
    getFlag, setFlag, $ts,*])

/-- C28 is violated: for `x' = 1`, `x(0) = 0`, `dt = 1` the in-place `do_step( sys , x , t , dt )` of
`extrapolation_stepper<4>` leaves `7/3` in `x`, the out-of-place version writes the exact solution `1`. -/
theorem extrapolation_inplace_wrong :
    (∃ h₁ : Heap ℚ ℚ Unit,
      doStep1 (extrapolationImpl 1) (fun _ _ => pure 1) (.user 0) 0 1 zeroHeap = .ok () h₁ ∧
      h₁.state (.user 0) = 7 / 3) ∧
    (∃ h₃ : Heap ℚ ℚ Unit,
      doStep3 (extrapolationImpl 1) (fun _ _ => pure 1) (.user 0) 0 (.user 1) 1 zeroHeap = .ok () h₃ ∧
      h₃.state (.user 1) = 1) := by
  constructor <;>
  · simp only [doStep1, doStep3, extrapolationImpl, extrapolationLoop, extrapolate, midpointImpl, interval]
    norm_num only
    simp only [midpointLoop, extrapolateLoop]
    step_eval [exCoeff, interval]

/-- Non-vacuity of C27: one in-place step of `runge_kutta4` for `x' = x`, `x(0) = 1`, `dt = 1`. -/
example : ∃ h₁ : Heap ℚ ℚ Unit,
    doStep1 (ExplicitStepper.rk4 : ExplicitStepper ℚ).impl (fun x _ => pure x) (.user 0) 0 1
      (zeroHeap.set (.user 0) 1) = .ok () h₁ ∧ h₁.state (.user 0) = 65 / 24 := by
  simp only [ExplicitStepper.impl, doStep1, rk4Impl, genericRkImpl, rk4Tableau, Tableau.stages, runStages, calculateStage,
    List.zip, List.zipWith, stageArgs, List.cons_append, List.nil_append, List.length_cons, List.length_nil]
  step_eval [List.range, List.range.loop]

/-! ## C49: exceptions thrown by the system function

The explicit steppers give the strong exception guarantee, `runge_kutta_dopri5` does not. -/

/-- C49, the part that holds: when the system function throws during `do_step`, none of the user's objects has
changed. -/
theorem do_step_exception_safe_partial (s : ExplicitStepper K) (hs : s.WellFormed) (sys : Sys K V W)
    (x out : ℕ) (t dt : K) (h h' : Heap K V W) (e : Err)
    (hr : doStep1 s.impl sys (.user x) t dt h = .err e h' ∨
      doStep3 s.impl sys (.user x) t (.user out) dt h = .err e h') :
    ∀ n, h'.state (.user n) = h.state (.user n) := by
  obtain ⟨-, h1, h3⟩ := do_step_inplace_agrees s hs sys x out t dt h
  rcases hr with hr | hr
  · rw [hr] at h1; exact h1
  · rw [hr] at h3; exact h3

/-- Non-vacuity: the third evaluation throws. -/
example : ∃ h' : Heap ℚ ℚ ℕ, doStep1 (ExplicitStepper.rk4 : ExplicitStepper ℚ).impl
    (fun _ _ n => if n = 2 then .err (.user 0) n else .ok 1 (n + 1)) (.user 0) 0 1
      ⟨fun _ => 0, fun _ => 0, fun _ => false, fun _ => 0, 0⟩ = .err (.user 0) h' := by
  simp only [ExplicitStepper.impl, doStep1, rk4Impl, genericRkImpl, rk4Tableau, Tableau.stages, runStages, calculateStage,
    List.zip, List.zipWith, stageArgs, List.cons_append, List.nil_append, List.length_cons, List.length_nil]
  step_eval [List.range, List.range.loop, Heap.put_world, Heap.set_world]

/-- C49 is violated by `runge_kutta_dopri5`: if the last evaluation of the system function in a step throws, the
in-place `do_step` has already overwritten `x`. -/
theorem dopri5_exception_unsafe :
    ∃ (sys : Sys ℚ ℚ ℕ) (h h' : Heap ℚ ℚ ℕ),
      fsalStep1 dopri5Impl true sys (.user 0) 0 1 h = .err (.user 0) h' ∧
      h.state (.user 0) = 0 ∧ h'.state (.user 0) = 1 := by
  refine ⟨fun _ _ n => if n = 6 then .err (.user 0) n else .ok 1 (n + 1),
    ⟨fun _ => 0, fun _ => 0, fun _ => false, fun _ => 0, 0⟩, ?_⟩
  simp only [fsalStep1, fsalPrepare, fsalInitialize, dopri5Impl, Bool.true_or, if_true]
  step_eval [Heap.withWorld_state, Heap.put_world, Heap.set_world, Heap.putFlag_state, Heap.putFlag_world]

end Verif
