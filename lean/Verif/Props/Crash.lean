import Verif.Lemmas.Crash
import Verif.Lemmas.Relational
import Verif.Lemmas.IntegrateFixed
import Verif.Props.InPlace
import Verif.Props.ControlledRk
import Verif.Props.Calls
import Verif.Spec.Order
import Verif.Spec.DenseSteps

/-!
# C86: After an exception the caller's state is on the trajectory, and the integration can be repeated from there

* `n_steps_exception`, `const_exception`, `adaptive_exception`: whenever an exception of the system function or of the observer leaves `integrate_n_steps`,
  `integrate_const` or `integrate_adaptive` with an explicit stepper, the caller's variable holds the state with which the observer was called last;
* `adaptive_controlled_exception`: the same for `integrate_adaptive` with a controlled stepper, except for `step_adjustment_error`;
* `n_steps_recovery`, `const_recovery`, `adaptive_recovery`: if the system function failed temporarily, integrating from that state and time to the end gives
  exactly what an undisturbed integration would have given.
-/

set_option linter.unusedSectionVars false
set_option linter.unusedSimpArgs false

namespace Verif

section
variable {K V W : Type} [Add K] [Sub K] [Mul K] [Div K] [Neg K] [IntCast K] [StateOps K V]

theorem sceneStepper_safe {doStep : Loc → K → K → StepM K V W Unit} {R : V → K → K → V → Prop}
    (h : ∀ t dt (h : Heap K V W), (doStep (.user 0) t dt h).Leaves (fun _ h' => R (h.state (.user 0)) t dt (h'.state (.user 0)))
      (fun _ h' => h'.state (.user 0) = h.state (.user 0))) : SafeStep R (sceneStepper doStep) := by
  intro q x t dt sc hx
  have h1 := h t dt ((q.set (.user 0) x).withWorld sc.world)
  have e0 : ((q.set (.user 0) x).withWorld sc.world).state (.user 0) = x := by simp [Heap.withWorld, Heap.set_state_apply]
  rw [e0] at h1
  simp only [sceneStepper]
  revert h1
  cases doStep (.user 0) t dt ((q.set (.user 0) x).withWorld sc.world) with
  | ok a h' => exact fun h1 => ⟨rfl, h1⟩
  | err e h' => exact fun h1 => ⟨h1, rfl⟩
  | ub => exact fun h1 => h1
  | div => exact fun h1 => h1

/-- What `do_step` of the explicit steppers does to the state. -/
theorem doStep1_leaves (s : ExplicitStepper K) (hs : s.WellFormed) (sys : Sys K V W) (t dt : K) (h : Heap K V W) :
    (doStep1 s.impl sys (.user 0) t dt h).Leaves (fun _ _ => True) (fun _ h' => h'.state (.user 0) = h.state (.user 0)) := by
  cases e : doStep1 s.impl sys (.user 0) t dt h with
  | ok a h' => trivial
  | err e' h' => exact do_step_exception_safe_partial s hs sys 0 0 t dt h h' e' (Or.inl e) 0
  | ub => trivial
  | div => trivial

/-- **C86, `integrate_n_steps`**: for every explicit stepper, every system function and observer (both may throw at any call), every arithmetic. -/
theorem n_steps_exception (A : TimeArith K) (s : ExplicitStepper K) (hs : s.WellFormed) (sys : Sys K V W) (obs : Observer W V K) (q : Heap K V W) (x₀ : V)
    (t₀ dt : K) (n : ℕ) (w : W) (e : Err) (sc : Scene W V K)
    (h : integrateNStepsBasic A (sceneStepper fun l t dt => doStep1 s.impl sys l t dt) (sceneObserver obs) q x₀ t₀ dt n ⟨w, x₀, []⟩ = .err e sc) :
    ∃ t, sc.LastSeen t := by
  have := n_steps_leaves obs A (sceneStepper_safe (R := fun _ _ _ _ => True) fun t dt h => doStep1_leaves s hs sys t dt h) q x₀ t₀ dt n ⟨w, x₀, []⟩ rfl
  rw [h] at this
  obtain ⟨k, -, -, h3⟩ := this
  exact ⟨_, h3⟩

/-- **C86, `integrate_const`**. -/
theorem const_exception (A : TimeArith K) (s : ExplicitStepper K) (hs : s.WellFormed) (sys : Sys K V W) (obs : Observer W V K) (q : Heap K V W) (x₀ : V)
    (t₀ t₁ dt : K) (w : W) (e : Err) (sc : Scene W V K)
    (h : integrateConstBasic A (sceneStepper fun l t dt => doStep1 s.impl sys l t dt) (sceneObserver obs) q x₀ t₀ t₁ dt ⟨w, x₀, []⟩ = .err e sc) :
    ∃ t, sc.LastSeen t := by
  have := const_leaves obs A (sceneStepper_safe (R := fun _ _ _ _ => True) fun t dt h => doStep1_leaves s hs sys t dt h) q x₀ t₀ t₁ dt ⟨w, x₀, []⟩ rfl
  rw [h] at this
  obtain ⟨k, -, -, h3⟩ := this
  exact ⟨_, h3⟩

/-- **C86, `integrate_adaptive` with an explicit stepper**. -/
theorem adaptive_exception (A : TimeArith K) (s : ExplicitStepper K) (hs : s.WellFormed) (sys : Sys K V W) (obs : Observer W V K) (q : Heap K V W) (x₀ : V)
    (t₀ t₁ dt : K) (w : W) (e : Err) (sc : Scene W V K)
    (h : integrateAdaptiveBasic A (sceneStepper fun l t dt => doStep1 s.impl sys l t dt) (sceneObserver obs) q x₀ t₀ t₁ dt ⟨w, x₀, []⟩ = .err e sc) :
    ∃ t, sc.LastSeen t := by
  have := adaptive_leaves obs A (sceneStepper_safe (R := fun _ _ _ _ => True) fun t dt h => doStep1_leaves s hs sys t dt h) q x₀ t₀ t₁ dt ⟨w, x₀, []⟩ rfl
  rw [h] at this
  obtain ⟨k, -, -, h3⟩ | ⟨k, x, -, -, -, -, -, h3⟩ := this
  · exact ⟨_, h3⟩
  · exact ⟨_, h3⟩

theorem sceneControlled_safe {tryStep : Loc → K → K → StepM K V W (TryOut K)}
    (h : ∀ t dt (h : Heap K V W), (tryStep (.user 0) t dt h).Leaves
      (fun r h' => r.success = false → h'.state (.user 0) = h.state (.user 0) ∧ r.t = t)
      (fun _ h' => h'.state (.user 0) = h.state (.user 0))) : SafeTry (sceneControlled tryStep) := by
  intro q x t dt sc hx
  have h1 := h t dt ((q.set (.user 0) x).withWorld sc.world)
  have e0 : ((q.set (.user 0) x).withWorld sc.world).state (.user 0) = x := by simp [Heap.withWorld, Heap.set_state_apply]
  rw [e0] at h1
  simp only [sceneControlled]
  revert h1
  cases tryStep (.user 0) t dt ((q.set (.user 0) x).withWorld sc.world) with
  | ok a h' => exact fun h1 => ⟨rfl, rfl, h1⟩
  | err e h' => exact fun h1 => ⟨h1, rfl⟩
  | ub => exact fun h1 => h1
  | div => exact fun h1 => h1

theorem computes_leaves {os : List Owner} {h : Heap K V W} {p : StepM K V W (TryOut K)} {α : Type} {spec : M W (Trial K α)} {t dt : K}
    {outs : Trial K α → List (Loc × V)} (H : Computes os h p spec (Trial.out t dt) outs []) (hos : ¬ (Loc.user 0).ownedBy os)
    (ho : ∀ a, (Trial.out t dt a).success = false → outs a = []) :
    (p h).Leaves (fun r h' => r.success = false → h'.state (.user 0) = h.state (.user 0) ∧ r.t = t) (fun _ h' => h'.state (.user 0) = h.state (.user 0)) := by
  unfold Computes at H
  cases hs : spec h.world with
  | ok a w =>
    rw [hs] at H
    obtain ⟨h', e1, -, e3⟩ := H
    rw [e1]
    intro hf
    have e4 := (e3 (.user 0) hos).1
    rw [ho a hf] at e4
    refine ⟨by simpa [Heap.setAll] using e4, ?_⟩
    cases a <;> simp_all [Trial.out]
  | err e w =>
    rw [hs] at H
    obtain ⟨h', e1, -, e3⟩ := H
    rw [e1]
    exact (e3 (.user 0) hos (by simp)).1
  | ub => rw [hs] at H; rw [H]; trivial
  | div => rw [hs] at H; rw [H]; trivial

theorem fsalTry1_leaves (P : CtrlParams K V) (resized : Bool) (sys : Sys K V W) (t dt : K) (h : Heap K V W) :
    (fsalTry1 P dopri5ErrImpl resized sys (.user 0) t dt h).Leaves
      (fun r h' => r.success = false → h'.state (.user 0) = h.state (.user 0) ∧ r.t = t) (fun _ h' => h'.state (.user 0) = h.state (.user 0)) := by
  have nd : ¬ mCtrlDxdt.ownedBy ctrlOwners := by simp [mCtrlDxdt, Loc.ownedBy]
  have main : ∀ g : Heap K V W, g.state (.user 0) = h.state (.user 0) → (fsalTry3 P dopri5ErrImpl sys (.user 0) mCtrlDxdt t dt g).Leaves
      (fun r h' => r.success = false → h'.state (.user 0) = h.state (.user 0) ∧ r.t = t) (fun _ h' => h'.state (.user 0) = h.state (.user 0)) := by
    intro g hg
    rw [← hg]
    refine computes_leaves (fsalTry3_computes P dopri5ErrImpl dopri5ErrStep sys _ _ t dt g (ownedBy_user _ _) nd
      (fsalErr_val sys _ _ _ _ t dt g (ownedBy_user _ _) nd (by simp [mXnew, Loc.ownedBy]) (by simp [mDxdtNew, Loc.ownedBy]) (by simp [mXnew, mDxdtNew])
        (by simp [mXnew, mCtrlDxdt]))) (ownedBy_user _ _) ?_
    intro a ha
    cases a <;> simp_all [Trial.out, Trial.inPlaceFsal]
  have e : fsalTry1 P dopri5ErrImpl resized sys (.user 0) t dt h =
      (do if resized || h.flag mCtrlFirst then fsalCtrlInitialize sys (.user 0) t
          fsalTry3 P dopri5ErrImpl sys (.user 0) mCtrlDxdt t dt : StepM K V W (TryOut K)) h := rfl
  rw [e]
  by_cases hc : (resized || h.flag mCtrlFirst) = true
  · rw [if_pos hc]
    refine Res.Leaves.bind (R := fun _ g => g.state (.user 0) = h.state (.user 0)) ?_ fun _ g hg => main g hg
    unfold fsalCtrlInitialize
    refine Res.Leaves.bind (R := fun _ g => g.state (.user 0) = h.state (.user 0)) ?_ fun _ g hg => (show (g.putFlag mCtrlFirst false).state (.user 0) = _ from hg)
    unfold callSys
    have n1 : Loc.user 0 ≠ mCtrlDxdt := by simp [mCtrlDxdt]
    cases sys (h.state (.user 0)) t h.world with
    | ok v w => exact Heap.put_state_ne _ _ _ n1
    | err e w => exact rfl
    | ub => trivial
    | div => trivial
  · rw [if_neg hc]
    exact main h rfl

/-- The controlled Runge-Kutta steppers. -/
inductive CtrlKind (K : Type) where
  | error (s : ErrorStepper K)
  | dopri5 (resized : Bool)

/-- their `try_step( sys , x , t , dt )` -/
def CtrlKind.tryStep (P : CtrlParams K V) (sys : Sys K V W) : CtrlKind K → Loc → K → K → StepM K V W (TryOut K)
  | .error s => fun l t dt => tryStep1 P s.errImpl sys l t dt
  | .dopri5 resized => fun l t dt => fsalTry1 P dopri5ErrImpl resized sys l t dt

/-- **C86, `integrate_adaptive` with `controlled_runge_kutta`**, of an error stepper or of `runge_kutta_dopri5` (which alone does not have this property). -/
theorem adaptive_controlled_exception (A : TimeArith K) (P : CtrlParams K V) (c : CtrlKind K) (hc : ∀ s, c = .error s → s.WellFormed) (sys : Sys K V W)
    (obs : Observer W V K) (q : Heap K V W) (x₀ : V) (t₀ t₁ dt : K) (w : W) (e : Err) (sc : Scene W V K)
    (h : integrateAdaptiveControlled A (sceneControlled (c.tryStep P sys)) (sceneObserver obs) q x₀ t₀ t₁ dt ⟨w, x₀, []⟩ = .err e sc)
    (he : e ≠ .stepAdjustment) : ∃ t, sc.LastSeen t := by
  have safe : SafeTry (sceneControlled (c.tryStep P sys)) := by
    cases c with
    | error s =>
      refine sceneControlled_safe fun t dt h => computes_leaves (try_step_contract P s (hc s rfl) sys 0 t dt h) (ownedBy_user _ _) ?_
      intro a ha
      cases a <;> simp_all [Trial.out, Trial.inPlace]
    | dopri5 resized => exact sceneControlled_safe fun t dt h => fsalTry1_leaves P resized sys t dt h
  have := adaptive_controlled_leaves obs A safe q x₀ t₀ t₁ dt ⟨w, x₀, []⟩ rfl
  rw [h] at this
  exact this.resolve_left he

end

/-! ## Repeating the integration -/

section
variable {K V W : Type} [Field K] [LinearOrder K] [IsStrictOrderedRing K] [StateOps K V]

/-- The step of an explicit stepper for a right-hand side without side effects. -/
def explicitStep (s : ExplicitStepper K) (f : V → K → V) (x : V) (t dt : K) : V :=
  match (countSys f x t >>= fun k => s.recipe (countSys f) x k t dt) 0 with
  | .ok v _ => v
  | _ => x

theorem linClosed_eq : LinClosed K (fun x y : V => x = y) := by
  intro l hl
  congr 1
  refine List.map_congr_left fun p hp => ?_
  rw [hl p hp]

theorem doStep1_rel {W X : Type} {lax : Prop} {f : Sys K V W} {g : Sys K V X} (hs : SysRel lax (fun x y => x = y) (fun _ _ => True) f g) (s : ExplicitStepper K) (t dt : K) :
    RunRel lax (fun x y : V => x = y) (fun _ _ => True) (doStep1 s.impl f (.user 0) t dt) (doStep1 s.impl g (.user 0) t dt) :=
  RunRel.bind (RunRel.callSys hs _ _ _) fun _ => explicit_rel linClosed_eq hs s _ _ _ _ _

theorem doStep1_value (s : ExplicitStepper K) (hs : s.WellFormed) {f : V → K → V} {sys : Sys K V W} (hf : SysFor f sys) (t dt : K) (h h' : Heap K V W)
    (e : doStep1 s.impl sys (.user 0) t dt h = .ok () h') : h'.state (.user 0) = explicitStep s f (h.state (.user 0)) t dt := by
  have rel : SysRel True (fun x y : V => x = y) (fun _ _ => True) sys (countSys f) := by
    rintro x _ t w n rfl -
    cases hv : sys x t w with
    | ok v w' => exact ⟨_, _, rfl, hf _ _ _ _ _ hv, trivial⟩
    | err _ _ => exact Or.inl trivial
    | ub => exact Or.inl trivial
    | div => exact Or.inl trivial
  have h1 := doStep1_rel rel s t dt h ⟨h.state, h.num, h.flag, h.nat, 0⟩ ⟨fun _ => rfl, rfl, rfl, rfl, trivial⟩
  rw [e] at h1
  obtain ⟨_, g, e1, -, h2⟩ := h1
  have h3 := doStep1_implements s hs (countSys f) (.user 0) t dt ⟨h.state, h.num, h.flag, h.nat, 0⟩ (ownedBy_user _ _)
  unfold Implements at h3
  rw [h2.state]
  unfold explicitStep
  simp only at h3
  revert h3
  cases (countSys f (h.state (.user 0)) t >>= fun k => s.recipe (countSys f) (h.state (.user 0)) k t dt) 0 with
  | ok v n =>
    rintro ⟨g', e2, -, h4⟩
    rw [e1] at e2
    cases e2
    have h5 := (h4 (.user 0) (ownedBy_user _ _)).1
    simpa [Heap.setAll, Heap.set] using h5
  | err e n => rintro ⟨g', e2, -⟩; rw [e1] at e2; cases e2
  | ub => intro e2; rw [e1] at e2; cases e2
  | div => intro e2; rw [e1] at e2; cases e2

theorem Evaluates.sysFor {f : V → K → V} {sys : Sys K V W} (h : Evaluates sys f) : SysFor f sys := by
  intro x t w v w' e
  obtain ⟨w1, e1⟩ := h x t w
  rw [e] at e1
  cases e1
  rfl

theorem doStep1_returns (s : ExplicitStepper K) (hs : s.WellFormed) {f : V → K → V} {sys : Sys K V W} (hf : Evaluates sys f) (t dt : K) (h : Heap K V W) :
    ∃ h', doStep1 s.impl sys (.user 0) t dt h = .ok () h' := by
  have rel : SysRel False (fun x y : V => x = y) (fun _ _ => True) (countSys f) sys := by
    rintro x _ t n w rfl -
    obtain ⟨w', e⟩ := hf x t w
    exact ⟨_, _, e, rfl, trivial⟩
  have h1 := doStep1_rel rel s t dt ⟨h.state, h.num, h.flag, h.nat, 0⟩ h ⟨fun _ => rfl, rfl, rfl, rfl, trivial⟩
  obtain ⟨u, g, e1, -⟩ := (do_step_calls s hs (sys := countSys f) (fun x t n => ⟨_, rfl⟩) (.user 0) (.user 0) (.user 0) t dt).1 ⟨h.state, h.num, h.flag, h.nat, 0⟩
  rw [e1] at h1
  obtain ⟨_, h', e2, -⟩ := h1
  exact ⟨h', e2⟩

theorem explicit_safe (s : ExplicitStepper K) (hs : s.WellFormed) {f : V → K → V} {sys : Sys K V W} (hf : SysFor f sys) :
    SafeStep (fun x t dt y => y = explicitStep s f x t dt) (sceneStepper fun l t dt => doStep1 s.impl sys l t dt) := by
  refine sceneStepper_safe fun t dt h => ?_
  have h1 := doStep1_leaves s hs sys t dt h
  cases e : doStep1 s.impl sys (.user 0) t dt h with
  | ok a h' => exact doStep1_value s hs hf t dt h h' e
  | err e' h' => rw [e] at h1; exact h1
  | ub => trivial
  | div => trivial

theorem explicit_steps (s : ExplicitStepper K) (hs : s.WellFormed) {f : V → K → V} {sys : Sys K V W} (hf : Evaluates sys f) :
    StepsBy (explicitStep s f) (sceneStepper fun l t dt => doStep1 s.impl sys l t dt) := by
  intro q x t dt sc
  obtain ⟨h', e⟩ := doStep1_returns s hs hf t dt ((q.set (.user 0) x).withWorld sc.world)
  have hv := doStep1_value s hs hf.sysFor t dt _ _ e
  have e0 : ((q.set (.user 0) x).withWorld sc.world).state (.user 0) = x := by simp [Heap.withWorld, Heap.set_state_apply]
  rw [e0] at hv
  refine ⟨h', ⟨h'.world, h'.state (.user 0), sc.seen⟩, ?_⟩
  simp only [sceneStepper, e, hv]

theorem Quiet.scene {obs : Observer W V K} (h : Quiet obs) : Quiet (sceneObserver obs) := by
  intro x t sc
  obtain ⟨w, e⟩ := h x t sc.world
  exact ⟨⟨w, sc.x, sc.seen ++ [(x, t)]⟩, by simp only [sceneObserver, e]⟩

theorem loopTime_exact (eps t₀ dt : K) (k : ℕ) : loopTime (TimeArith.exact K eps) t₀ dt k = t₀ + k * dt := by
  cases k with
  | zero => simp
  | succ k => simp [TimeArith.exact]

/-- **C86, `integrate_n_steps` can be repeated after a temporary failure**: `sys` computes `f` but may throw; an integration with it ends with an exception.  Then
the observer was called last at a grid point `t₀ + k dt`, and the remaining `n - k` steps, made with a system function that does not fail, with any stepper
object, from the caller's variable, give the state that an undisturbed integration gives. -/
theorem n_steps_recovery (eps : K) (s : ExplicitStepper K) (hs : s.WellFormed) {f : V → K → V} {sys sys' : Sys K V W} (hf : SysFor f sys) (hf' : Evaluates sys' f)
    (obs : Observer W V K) {obs' : Observer W V K} (ho : Quiet obs') (q q₁ q₂ : Heap K V W) (x₀ : V) (t₀ dt : K) (n : ℕ) (w w₁ w₂ : W) (e : Err) (sc : Scene W V K)
    (h : integrateNStepsBasic (TimeArith.exact K eps) (sceneStepper fun l t dt => doStep1 s.impl sys l t dt) (sceneObserver obs) q x₀ t₀ dt n ⟨w, x₀, []⟩ = .err e sc) :
    ∃ k ≤ n, sc.LastSeen (t₀ + k * dt) ∧ ∃ x sc₁ sc₂,
      integrateNStepsBasic (TimeArith.exact K eps) (sceneStepper fun l t dt => doStep1 s.impl sys' l t dt) (sceneObserver obs') q₁ x₀ t₀ dt n ⟨w₁, x₀, []⟩ =
        .ok (x, t₀ + n * dt) sc₁ ∧
      integrateNStepsBasic (TimeArith.exact K eps) (sceneStepper fun l t dt => doStep1 s.impl sys' l t dt) (sceneObserver obs') q₂ sc.x (t₀ + k * dt) dt (n - k)
        ⟨w₂, sc.x, []⟩ = .ok (x, t₀ + n * dt) sc₂ := by
  have h1 := n_steps_leaves obs (TimeArith.exact K eps) (explicit_safe s hs hf) q x₀ t₀ dt n ⟨w, x₀, []⟩ rfl
  rw [h] at h1
  obtain ⟨k, hk, h2, h3⟩ := h1
  obtain ⟨x, sc₁, e1, p1⟩ := n_steps_good (TimeArith.exact K eps) (explicit_steps s hs hf') ho.scene q₁ x₀ t₀ dt n ⟨w₁, x₀, []⟩
  obtain ⟨y, sc₂, e2, p2⟩ := n_steps_good (TimeArith.exact K eps) (explicit_steps s hs hf') ho.scene q₂ sc.x (t₀ + k * dt) dt (n - k) ⟨w₂, sc.x, []⟩
  have p3 := h2.append (p2.congr (g' := fun j => loopTime (TimeArith.exact K eps) t₀ dt (k + j)) fun j _ => by
    simp only [loopTime_exact]; push_cast; ring)
  rw [Nat.add_sub_cancel' hk] at p3
  obtain rfl := p1.unique p3
  rw [loopTime_exact] at h3 e1 e2
  refine ⟨k, hk, h3, x, sc₁, sc₂, e1, ?_⟩
  rw [e2]
  congr 2
  push_cast [Nat.cast_sub hk]
  ring

/-- **C86, `integrate_const` can be repeated after a temporary failure**. -/
theorem const_recovery (eps : K) (s : ExplicitStepper K) (hs : s.WellFormed) {f : V → K → V} {sys sys' : Sys K V W} (hf : SysFor f sys) (hf' : Evaluates sys' f)
    (obs : Observer W V K) {obs' : Observer W V K} (ho : Quiet obs') (q q₁ q₂ : Heap K V W) (x₀ x : V) (t₀ t₁ dt : K) (n : ℕ) (w w₁ w₂ : W) (e : Err)
    (sc sc₁ : Scene W V K)
    (h : integrateConstBasic (TimeArith.exact K eps) (sceneStepper fun l t dt => doStep1 s.impl sys l t dt) (sceneObserver obs) q x₀ t₀ t₁ dt ⟨w, x₀, []⟩ = .err e sc)
    (h' : integrateConstBasic (TimeArith.exact K eps) (sceneStepper fun l t dt => doStep1 s.impl sys' l t dt) (sceneObserver obs') q₁ x₀ t₀ t₁ dt ⟨w₁, x₀, []⟩ =
      .ok (x, n) sc₁) :
    ∃ k ≤ n, sc.LastSeen (t₀ + k * dt) ∧ ∃ sc₂,
      integrateConstBasic (TimeArith.exact K eps) (sceneStepper fun l t dt => doStep1 s.impl sys' l t dt) (sceneObserver obs') q₂ sc.x (t₀ + k * dt) t₁ dt
        ⟨w₂, sc.x, []⟩ = .ok (x, n - k) sc₂ := by
  have h1 := const_leaves obs (TimeArith.exact K eps) (explicit_safe s hs hf) q x₀ t₀ t₁ dt ⟨w, x₀, []⟩ rfl
  have g1 := const_leaves obs' (TimeArith.exact K eps) (explicit_safe s hs hf'.sysFor) q₁ x₀ t₀ t₁ dt ⟨w₁, x₀, []⟩ rfl
  rw [h] at h1
  rw [h'] at g1
  obtain ⟨k, hk, h2, h3⟩ := h1
  obtain ⟨-, p1, g2, -, g3⟩ := g1
  simp only [loopTime_exact] at hk g2 g3
  have hkn : k ≤ n := by
    by_contra hc
    rw [hk n (by omega)] at g3
    cases g3
  have shift : ∀ j : ℕ, t₀ + k * dt + j * dt = t₀ + ((k + j : ℕ) : K) * dt := fun j => by push_cast; ring
  obtain ⟨y, sc₂, e2, p2⟩ := const_good (TimeArith.exact K eps) (explicit_steps s hs hf') ho.scene q₂ sc.x (t₀ + k * dt) t₁ dt (n - k) ⟨w₂, sc.x, []⟩
    (fun j hj => by rw [loopTime_exact, shift]; exact g2 _ (by omega))
    (by rw [loopTime_exact, shift, Nat.add_sub_cancel' hkn]; exact g3)
  have p3 := h2.append (p2.congr (g' := fun j => loopTime (TimeArith.exact K eps) t₀ dt (k + j)) fun j _ => by
    simp only [loopTime_exact]; push_cast; ring)
  rw [Nat.add_sub_cancel' hkn] at p3
  obtain rfl := Path.unique p1 p3
  rw [loopTime_exact] at h3
  exact ⟨k, hkn, h3, sc₂, e2⟩

/-- **C86, `integrate_adaptive` can be repeated after a temporary failure**: from the time `t` at which the observer was called last. -/
theorem adaptive_recovery (eps : K) (h0 : 0 ≤ eps) (s : ExplicitStepper K) (hs : s.WellFormed) {f : V → K → V} {sys sys' : Sys K V W} (hf : SysFor f sys)
    (hf' : Evaluates sys' f) (obs : Observer W V K) {obs' : Observer W V K} (ho : Quiet obs') (q q₁ q₂ : Heap K V W) (x₀ x : V) (t₀ t₁ dt : K) (hdt : eps < |dt|)
    (n : ℕ) (w w₁ w₂ : W) (e : Err) (sc sc₁ : Scene W V K)
    (h : integrateAdaptiveBasic (TimeArith.exact K eps) (sceneStepper fun l t dt => doStep1 s.impl sys l t dt) (sceneObserver obs) q x₀ t₀ t₁ dt ⟨w, x₀, []⟩ = .err e sc)
    (h' : integrateAdaptiveBasic (TimeArith.exact K eps) (sceneStepper fun l t dt => doStep1 s.impl sys' l t dt) (sceneObserver obs') q₁ x₀ t₀ t₁ dt ⟨w₁, x₀, []⟩ =
      .ok (x, n) sc₁) :
    ∃ t m sc₂, sc.LastSeen t ∧
      integrateAdaptiveBasic (TimeArith.exact K eps) (sceneStepper fun l t dt => doStep1 s.impl sys' l t dt) (sceneObserver obs') q₂ sc.x t t₁ dt ⟨w₂, sc.x, []⟩ =
        .ok (x, m) sc₂ := by
  have h1 := adaptive_leaves obs (TimeArith.exact K eps) (explicit_safe s hs hf) q x₀ t₀ t₁ dt ⟨w, x₀, []⟩ rfl
  rw [h] at h1
  -- the undisturbed run
  obtain ⟨y, k', pk, g2, g3, hy⟩ : ∃ y k', Path (fun x t dt y => y = explicitStep s f x t dt) (loopTime (TimeArith.exact K eps) t₀ dt) dt x₀ k' y ∧
      (∀ j < k', (TimeArith.exact K eps).lessEqWithSign ((TimeArith.exact K eps).add (loopTime (TimeArith.exact K eps) t₀ dt j) dt) t₁ dt = true) ∧
      (TimeArith.exact K eps).lessEqWithSign ((TimeArith.exact K eps).add (loopTime (TimeArith.exact K eps) t₀ dt k') dt) t₁ dt = false ∧
      x = if (TimeArith.exact K eps).lessWithSign (t₀ + k' * dt) t₁ dt = true then explicitStep s f y (t₀ + k' * dt) (t₁ - (t₀ + k' * dt)) else y := by
    have g1 := const_leaves obs' (TimeArith.exact K eps) (explicit_safe s hs hf'.sysFor) q₁ x₀ t₀ t₁ dt ⟨w₁, x₀, []⟩ rfl
    unfold integrateAdaptiveBasic at h'
    rw [M.bind_apply] at h'
    revert h' g1
    cases integrateConstBasic (TimeArith.exact K eps) (sceneStepper fun l t dt => doStep1 s.impl sys' l t dt) (sceneObserver obs') q₁ x₀ t₀ t₁ dt ⟨w₁, x₀, []⟩ with
    | ok r sc' =>
      obtain ⟨y, k'⟩ := r
      intro h' g1
      obtain ⟨hx', p, g2, -, g3⟩ := g1
      simp only at hx' p g2 g3
      refine ⟨y, k', p, g2, g3, ?_⟩
      have ee : (TimeArith.exact K eps).add t₀ ((TimeArith.exact K eps).nmul k' dt) = t₀ + k' * dt := rfl
      simp only [ee] at h'
      by_cases hc : (TimeArith.exact K eps).lessWithSign (t₀ + k' * dt) t₁ dt = true
      · rw [if_pos hc] at h' ⊢
        obtain ⟨q', sc'', e1⟩ := explicit_steps s hs hf' q₁ y (t₀ + k' * dt) ((TimeArith.exact K eps).sub t₁ (t₀ + k' * dt)) sc'
        obtain ⟨sc3, e2⟩ := ho.scene (explicitStep s f y (t₀ + k' * dt) ((TimeArith.exact K eps).sub t₁ (t₀ + k' * dt))) t₁ sc''
        rw [M.bind_ok e1] at h'
        simp only at h'
        rw [M.bind_ok e2] at h'
        cases h'
        rfl
      · rw [if_neg hc] at h' ⊢
        cases h'
        rfl
    | err _ _ => intro h'; cases h'
    | ub => intro h'; cases h'
    | div => intro h'; cases h'
  -- a run from `(z,t)` that makes `m` full steps
  have run : ∀ (z : V) (t : K) (m : ℕ),
      (∀ j < m, (TimeArith.exact K eps).lessEqWithSign ((TimeArith.exact K eps).add (loopTime (TimeArith.exact K eps) t dt j) dt) t₁ dt = true) →
      (TimeArith.exact K eps).lessEqWithSign ((TimeArith.exact K eps).add (loopTime (TimeArith.exact K eps) t dt m) dt) t₁ dt = false →
      ∃ y' m' sc₂, Path (fun x t dt y => y = explicitStep s f x t dt) (loopTime (TimeArith.exact K eps) t dt) dt z m y' ∧
        integrateAdaptiveBasic (TimeArith.exact K eps) (sceneStepper fun l t dt => doStep1 s.impl sys' l t dt) (sceneObserver obs') q₂ z t t₁ dt ⟨w₂, z, []⟩ =
          .ok (if (TimeArith.exact K eps).lessWithSign (t + m * dt) t₁ dt = true then explicitStep s f y' (t + m * dt) (t₁ - (t + m * dt)) else y', m') sc₂ := by
    intro z t m a1 a2
    obtain ⟨y', sc', e1, p'⟩ := const_good (TimeArith.exact K eps) (explicit_steps s hs hf') ho.scene q₂ z t t₁ dt m ⟨w₂, z, []⟩ a1 a2
    unfold integrateAdaptiveBasic
    rw [M.bind_ok e1]
    have ee : (TimeArith.exact K eps).add t ((TimeArith.exact K eps).nmul m dt) = t + m * dt := rfl
    simp only [ee]
    by_cases hc : (TimeArith.exact K eps).lessWithSign (t + m * dt) t₁ dt = true
    · rw [if_pos hc]
      obtain ⟨q', sc'', e2⟩ := explicit_steps s hs hf' q₂ y' (t + m * dt) ((TimeArith.exact K eps).sub t₁ (t + m * dt)) sc'
      obtain ⟨sc3, e3⟩ := ho.scene (explicitStep s f y' (t + m * dt) ((TimeArith.exact K eps).sub t₁ (t + m * dt))) t₁ sc''
      refine ⟨y', m + 1, sc3, p', ?_⟩
      rw [M.bind_ok e2]
      simp only
      rw [M.bind_ok e3, if_pos hc]
      rfl
    · rw [if_neg hc]
      exact ⟨y', m, sc', p', by rw [if_neg hc]; rfl⟩
  rcases h1 with ⟨k, hk, h2, h3⟩ | ⟨k, z, p, hk, hk', hc, hz, h3⟩
  · have hkn : k ≤ k' := by
      by_contra hc
      rw [hk k' (by omega)] at g3
      cases g3
    have shift : ∀ j : ℕ, t₀ + k * dt + j * dt = t₀ + ((k + j : ℕ) : K) * dt := fun j => by push_cast; ring
    simp only [loopTime_exact] at g2 g3
    obtain ⟨y', m', sc₂, p2, e2⟩ := run sc.x (t₀ + k * dt) (k' - k)
      (fun j hj => by rw [loopTime_exact, shift]; exact g2 _ (by omega))
      (by rw [loopTime_exact, shift, Nat.add_sub_cancel' hkn]; exact g3)
    have p3 := h2.append (p2.congr (g' := fun j => loopTime (TimeArith.exact K eps) t₀ dt (k + j)) fun j _ => by
      simp only [loopTime_exact]; push_cast; ring)
    rw [Nat.add_sub_cancel' hkn] at p3
    obtain rfl := Path.unique pk p3
    rw [loopTime_exact] at h3
    rw [shift, Nat.add_sub_cancel' hkn, ← hy] at e2
    exact ⟨_, m', sc₂, h3, e2⟩
  · obtain rfl : k = k' := by
      rcases lt_trichotomy k k' with hlt | heq | hlt
      · rw [g2 k hlt] at hk'; cases hk'
      · exact heq
      · rw [hk k' hlt] at g3; cases g3
    obtain rfl := Path.unique pk p
    have hc' : (TimeArith.exact K eps).lessWithSign (t₀ + k * dt) t₁ dt = true := hc
    rw [if_pos hc'] at hy
    have stay : (TimeArith.exact K eps).lessEqWithSign ((TimeArith.exact K eps).add (loopTime (TimeArith.exact K eps) t₁ dt 0) dt) t₁ dt = false := by
      rcases le_or_gt dt 0 with hd | hd
      · rw [abs_of_nonpos hd] at hdt
        simp [TimeArith.lessEqWithSign, TimeArith.exact, not_lt.2 hd]
        linarith
      · rw [abs_of_pos hd] at hdt
        simp [TimeArith.lessEqWithSign, TimeArith.exact, hd]
        linarith
    obtain ⟨y', m', sc₂, p2, e2⟩ := run sc.x t₁ 0 (by simp) stay
    cases p2
    have hno : ¬ (TimeArith.exact K eps).lessWithSign (t₁ + (0 : ℕ) * dt) t₁ dt = true := by
      rw [exact_less]
      simp [h0]
    rw [if_neg hno] at e2
    refine ⟨t₁, m', sc₂, h3, ?_⟩
    rw [e2, hy]
    congr 2

end

/-! ## Cases -/

/-- A right-hand side `1` whose evaluation number `m` (counted from `0`) fails. -/
def failingOnce (m : ℕ) : Sys ℚ ℚ ℕ := fun _ _ n => if n = m then .err (.user 7) (n + 1) else .ok 1 (n + 1)

theorem failingOnce_for (m : ℕ) : SysFor (fun _ _ => 1) (failingOnce m) := by
  intro x t w v w' h
  unfold failingOnce at h
  split at h <;> cases h
  rfl

/-- A step of Euler's method for this system. -/
theorem euler_failingOnce (m : ℕ) (q : Heap ℚ ℚ ℕ) (x t dt : ℚ) (sc : Scene ℕ ℚ ℚ) (h : sc.world ≠ m) :
    ∃ q', (sceneStepper fun l t dt => doStep1 (ExplicitStepper.euler : ExplicitStepper ℚ).impl (failingOnce m) l t dt).doStep q x t dt sc =
      .ok (q', x + dt) ⟨sc.world + 1, x + dt, sc.seen⟩ := by
  refine ⟨((((q.set (.user 0) x).withWorld sc.world).put mDxdt 1 (sc.world + 1)).set (.user 0) (x + dt)), ?_⟩
  have e : doStep1 (ExplicitStepper.euler : ExplicitStepper ℚ).impl (failingOnce m) (.user 0) t dt ((q.set (.user 0) x).withWorld sc.world) =
      .ok () ((((q.set (.user 0) x).withWorld sc.world).put mDxdt 1 (sc.world + 1)).set (.user 0) (x + dt)) := by
    have e1 : callSys (failingOnce m) (.user 0) mDxdt t ((q.set (.user 0) x).withWorld sc.world) =
        .ok () (((q.set (.user 0) x).withWorld sc.world).put mDxdt 1 (sc.world + 1)) := by
      simp [callSys, failingOnce, Heap.withWorld, h]
    unfold doStep1
    rw [M.bind_ok e1]
    simp [ExplicitStepper.impl, eulerImpl, linTo, lin, StateOps.lin, lit, Heap.put, Heap.set, Heap.withWorld, mDxdt]
  simp only [sceneStepper, e]
  simp [Heap.set, Heap.put]

theorem euler_failingOnce_throws (q : Heap ℚ ℚ ℕ) (x t dt : ℚ) (sc : Scene ℕ ℚ ℚ) :
    (sceneStepper fun l t dt => doStep1 (ExplicitStepper.euler : ExplicitStepper ℚ).impl (failingOnce sc.world) l t dt).doStep q x t dt sc =
      .err (.user 7) ⟨sc.world + 1, x, sc.seen⟩ := by
  have e1 : callSys (failingOnce sc.world) (.user 0) mDxdt t ((q.set (.user 0) x).withWorld sc.world) =
      .err (.user 7) ((q.set (.user 0) x).withWorld (sc.world + 1)) := by
    simp [callSys, failingOnce, Heap.withWorld]
  have e : doStep1 (ExplicitStepper.euler : ExplicitStepper ℚ).impl (failingOnce sc.world) (.user 0) t dt ((q.set (.user 0) x).withWorld sc.world) =
      .err (.user 7) ((q.set (.user 0) x).withWorld (sc.world + 1)) := by
    unfold doStep1
    rw [M.bind_err e1]
  simp only [sceneStepper, e]
  simp [Heap.set, Heap.withWorld]

/-- Non-vacuity: the second of three steps fails, and the caller's variable holds the state after one step. -/
theorem crash_case (q : Heap ℚ ℚ ℕ) :
    integrateNStepsBasic (TimeArith.exact ℚ 0) (sceneStepper fun l t dt => doStep1 (ExplicitStepper.euler : ExplicitStepper ℚ).impl (failingOnce 1) l t dt)
      (sceneObserver nullObserver) q 0 0 1 3 ⟨0, 0, []⟩ = .err (.user 7) ⟨2, 1, [(0, 0), (1, 1)]⟩ := by
  obtain ⟨q', e1⟩ := euler_failingOnce 1 q 0 0 1 ⟨0, 0, [(0, 0)]⟩ (by simp)
  have e2 := euler_failingOnce_throws q' (0 + 1) (0 + 1) 1 ⟨1, 0 + 1, [(0, 0), (0 + 1, 0 + 1)]⟩
  unfold integrateNStepsBasic
  apply M.bind_err
  simp only [nStepsBasicLoop]
  have o1 : sceneObserver (W := ℕ) nullObserver (0 : ℚ) (0 : ℚ) ⟨0, 0, []⟩ = .ok () ⟨0, 0, [(0, 0)]⟩ := rfl
  rw [M.bind_ok o1, M.bind_ok e1]
  have o2 : sceneObserver (W := ℕ) nullObserver (0 + 1 : ℚ) ((TimeArith.exact ℚ 0).add 0 ((TimeArith.exact ℚ 0).nmul (0 + 1) 1)) ⟨0 + 1, 0 + 1, [(0, 0)]⟩ =
      .ok () ⟨1, 0 + 1, [(0, 0), (0 + 1, 0 + 1)]⟩ := by
    simp [sceneObserver, nullObserver, M.pure_apply, TimeArith.exact]
  have o3 : (TimeArith.exact ℚ 0).add 0 ((TimeArith.exact ℚ 0).nmul (0 + 1) 1) = 0 + 1 := by simp [TimeArith.exact]
  simp only
  rw [M.bind_ok o2, o3, M.bind_err e2]
  norm_num

/-- ... and `n_steps_recovery` applies: two more steps give what three undisturbed steps give. -/
example (q q₁ q₂ : Heap ℚ ℚ ℕ) (w₁ w₂ : ℕ) :
    ∃ k : ℕ, k ≤ 3 ∧ (⟨2, 1, [(0, 0), (1, 1)]⟩ : Scene ℕ ℚ ℚ).LastSeen (0 + k * 1) ∧ ∃ x sc₁ sc₂,
      integrateNStepsBasic (TimeArith.exact ℚ 0) (sceneStepper fun l t dt => doStep1 (ExplicitStepper.euler : ExplicitStepper ℚ).impl (countSys fun _ _ => 1) l t dt)
        (sceneObserver nullObserver) q₁ 0 0 1 3 ⟨w₁, 0, []⟩ = .ok (x, 0 + (3 : ℕ) * 1) sc₁ ∧
      integrateNStepsBasic (TimeArith.exact ℚ 0) (sceneStepper fun l t dt => doStep1 (ExplicitStepper.euler : ExplicitStepper ℚ).impl (countSys fun _ _ => 1) l t dt)
        (sceneObserver nullObserver) q₂ 1 (0 + k * 1) 1 (3 - k) ⟨w₂, 1, []⟩ = .ok (x, 0 + (3 : ℕ) * 1) sc₂ :=
  n_steps_recovery 0 ExplicitStepper.euler trivial (failingOnce_for 1) (fun _ _ _ => ⟨_, rfl⟩) nullObserver (fun _ _ _ => ⟨_, rfl⟩) q q₁ q₂ 0 0 1 3 0 w₁ w₂ _ _
    (crash_case q)

/-- **C86 does not hold for `integrate_times`**: between two requested times the caller's variable is ahead of what the observer has seen, and the time it belongs
to is lost. -/
theorem times_exception_between (q : Heap ℚ ℚ ℕ) :
    ∃ sc, integrateTimesBasic (TimeArith.exact ℚ 0) (sceneStepper fun l t dt => doStep1 (ExplicitStepper.euler : ExplicitStepper ℚ).impl (failingOnce 1) l t dt)
      (sceneObserver nullObserver) q 0 [0, 2] 1 ⟨0, 0, []⟩ = .err (.user 7) sc ∧ sc.seen = [(0, 0)] ∧ sc.x = 1 := by
  obtain ⟨q', e1⟩ := euler_failingOnce 1 q 0 0 1 ⟨0, 0, [(0, 0)]⟩ (by simp)
  have e2 := euler_failingOnce_throws q' 1 1 1 ⟨1, 1, [(0, 0)]⟩
  refine ⟨⟨2, 1, [(0, 0)]⟩, ?_, rfl, rfl⟩
  unfold integrateTimesBasic
  simp only [timesBasicLoop]
  have o1 : sceneObserver (W := ℕ) nullObserver (0 : ℚ) (0 : ℚ) ⟨0, 0, []⟩ = .ok () ⟨0, 0, [(0, 0)]⟩ := rfl
  rw [M.bind_ok o1]
  apply M.bind_err
  unfold timesBasicInner
  have m1 : (TimeArith.exact ℚ 0).minAbs 1 ((TimeArith.exact ℚ 0).sub 2 0) = 1 := by
    norm_num [TimeArith.minAbs, TimeArith.stdMin, TimeArith.exact]
  have m2 : (TimeArith.exact ℚ 0).minAbs 1 ((TimeArith.exact ℚ 0).sub 2 1) = 1 := by
    norm_num [TimeArith.minAbs, TimeArith.stdMin, TimeArith.exact]
  rw [whileM_step_ok (s' := ⟨q', 1, 1, 1, 1, 0⟩) (w' := ⟨1, 1, [(0, 0)]⟩)]
  · apply whileM_step_err
    · norm_num [TimeArith.lessWithSign, TimeArith.exact]
    · simp only [m2]
      rw [M.bind_err e2]
  · norm_num [TimeArith.lessWithSign, TimeArith.exact]
  · simp only [m1]
    rw [M.bind_ok e1]
    simp [M.pure_apply, TimeArith.exact]

/-- **C86 does not hold for `runge_kutta_dopri5` without step size control**: its last evaluation is made after the state has been overwritten. -/
theorem n_steps_exception_dopri5 :
    ∃ sc, integrateNStepsBasic (TimeArith.exact ℚ 0) (sceneStepper fun l t dt => fsalStep1 dopri5Impl true (failingOnce 6) l t dt)
      (sceneObserver nullObserver) ⟨fun _ => 0, fun _ => 0, fun _ => false, fun _ => 0, 0⟩ 0 0 1 1 ⟨0, 0, []⟩ = .err (.user 7) sc ∧ sc.seen = [(0, 0)] ∧ sc.x = 1 := by
  have e : ∃ h' : Heap ℚ ℚ ℕ, fsalStep1 dopri5Impl true (failingOnce 6) (.user 0) 0 1
      ((Heap.set (⟨fun _ => 0, fun _ => 0, fun _ => false, fun _ => 0, 0⟩ : Heap ℚ ℚ ℕ) (.user 0) 0).withWorld 0) = .err (.user 7) h' ∧ h'.state (.user 0) = 1 := by
    unfold failingOnce
    simp only [fsalStep1, fsalPrepare, fsalInitialize, dopri5Impl, Bool.true_or, if_true]
    step_eval [Heap.withWorld_state, Heap.put_world, Heap.set_world, Heap.putFlag_state, Heap.putFlag_world, Heap.withWorld_world]
  obtain ⟨h', e1, e2⟩ := e
  refine ⟨⟨h'.world, 1, [(0, 0)]⟩, ?_, rfl, rfl⟩
  unfold integrateNStepsBasic
  apply M.bind_err
  simp only [nStepsBasicLoop]
  have o1 : sceneObserver (W := ℕ) nullObserver (0 : ℚ) (0 : ℚ) ⟨0, 0, []⟩ = .ok () ⟨0, 0, [(0, 0)]⟩ := rfl
  rw [M.bind_ok o1]
  apply M.bind_err
  simp only [sceneStepper, e1, e2]

end Verif
