import Verif.Props.Interval
import Verif.Props.Rosenbrock

/-!
# C83 for `rosenbrock4_controller`: where system function and Jacobian are evaluated

The integrate functions with a `rosenbrock4_controller` use the system function *and* the Jacobian only between start and end of the integration,
whatever the error estimates are, for exact arithmetic.  Steps that are tried and rejected are no exception.
-/

set_option linter.unusedSectionVars false

namespace Verif

section
variable {K Q S W W' Sy : Type} [Field K] [LinearOrder K] [IsStrictOrderedRing K]

/-- **C83, integrate functions with any controlled stepper** whose tries depend only on what the system `sys` does between `t` and `t + dt`, that keeps the
direction of the step size and does not enlarge rejected steps, in the states with `Ok`.  `Agree I` says which systems do the same inside of `I`. -/
theorem integrate_tries_inside (Agree : Set K → Sy → Sy → Prop) (st : Sy → ControlledStepper Q W' S K)
    (hst : ∀ I sys sys', Agree I sys sys' → TriesAgree I (st sys) (st sys')) (dt : K) (hdt : dt ≠ 0)
    {Ok : Q → Prop} (hf : ∀ sys, TriesForwardOn Ok dt (st sys))
    (obs : Observer W' S K) (eps : K) (heps : 0 ≤ eps) (q : Q) (hq : Ok q) (x : S) (t0 t1 : K) (n : ℕ) (times : List K) (sys sys' : Sy) :
    (Agree (during eps dt t0 (t0 + n * dt)) sys sys' →
      integrateNStepsControlled (TimeArith.exact K eps) (st sys) obs q x t0 dt n = integrateNStepsControlled (TimeArith.exact K eps) (st sys') obs q x t0 dt n) ∧
    (Agree (during (2 * eps) dt t0 t1) sys sys' →
      integrateConstControlled (TimeArith.exact K eps) (st sys) obs q x t0 t1 dt = integrateConstControlled (TimeArith.exact K eps) (st sys') obs q x t0 t1 dt) ∧
    (Agree (during eps dt t0 t1) sys sys' →
      integrateAdaptiveControlled (TimeArith.exact K eps) (st sys) obs q x t0 t1 dt =
        integrateAdaptiveControlled (TimeArith.exact K eps) (st sys') obs q x t0 t1 dt) ∧
    (Agree (duringTimes times) sys sys' →
      integrateTimesControlled (TimeArith.exact K eps) (st sys) obs q x times dt = integrateTimesControlled (TimeArith.exact K eps) (st sys') obs q x times dt) := by
  have hdd : SameDir dt dt := by rcases lt_or_gt_of_ne hdt with h | h; exacts [Or.inr ⟨h, h⟩, Or.inl ⟨h, h⟩]
  exact ⟨fun h => integrateNStepsControlled_agree heps (hst _ _ _ h) (hf _) hdt hq x,
    fun h => integrateConstControlled_agree heps (hst _ _ _ h) (hf _) hdt hq x,
    fun h => integrateAdaptiveControlled_agree heps (hst _ _ _ h) (hf _) hdd hq x,
    fun h => integrateTimesControlled_agree heps (hst _ _ _ h) (hf _) hdt hq x⟩

end

variable {V W Mat : Type} [StateOps ℝ V]

/-- `try_step` depends only on what system function and Jacobian do during the step -/
theorem rosTry4_agree (P : RosParams ℝ V) (solve : ℝ → Mat → V → V) {sys sys' : Sys ℝ V W} {jac jac' : Jac ℝ V W Mat} {t dt : ℝ}
    (h : ∀ τ ∈ duringStep t dt, ∀ x, sys x τ = sys' x τ) (hj : ∀ x, jac x t = jac' x t) (x : Loc) :
    rosTry4 P defaultRosenbrock solve sys jac x t dt = rosTry4 P defaultRosenbrock solve sys' jac' x t dt := by
  simp only [rosTry4, rosTry5, rosDoStep6_agree solve h hj]

/-- time and step size after `try_step` -/
theorem rosTry4_forward {eps : ℝ} (P : RosParams ℝ V) (hO : P.O = realOps eps) (heps : 0 ≤ eps) (C : RosCoef ℝ) (solve : ℝ → Mat → V → V)
    (sys : Sys ℝ V W) (jac : Jac ℝ V W Mat) (d : ℝ) (hm : P.maxDt = 0 ∨ SameDir d P.maxDt) (x : ℕ) (t dt : ℝ) (h h' : Heap ℝ V W) (r : TryOut ℝ)
    (hd : SameDir d dt) (hr : rosTry4 P C solve sys jac (.user x) t dt h = .ok r h') :
    SameDir d r.dt ∧ (r.success = true → r.t = t + dt) ∧ (r.success = false → r.t = t ∧ |r.dt| ≤ |dt|) := by
  by_cases h0 : P.maxDt = 0
  · obtain ⟨s, w, -, -, h1, h2, -, c, c1, c2, -, c4, -⟩ := ros_try_step_bounds P hO h0 C solve sys jac x t dt h h' r hr
    have cp : 0 < c := by linarith
    refine ⟨by rw [c1]; exact hd.scale cp, fun hs => (h1 hs).2, fun hs => ⟨(h2 hs).2, ?_⟩⟩
    rw [c1, abs_mul, abs_of_pos cp]
    nlinarith [abs_nonneg dt, c4 hs]
  · have hm' := hm.resolve_left h0
    have hdir : SameDir P.maxDt dt := by
      rcases hd with hd | hd <;> rcases hm' with hm' | hm'
      · exact Or.inl ⟨hm'.2, hd.2⟩
      · linarith [hd.1, hm'.1]
      · linarith [hd.1, hm'.1]
      · exact Or.inr ⟨hm'.2, hd.2⟩
    have back : ∀ {e : ℝ}, SameDir P.maxDt e → SameDir d e := by
      intro e he
      rcases he with he | he <;> rcases hm' with hm' | hm'
      · exact Or.inl ⟨hm'.1, he.2⟩
      · linarith [he.1, hm'.2]
      · linarith [he.1, hm'.2]
      · exact Or.inr ⟨hm'.1, he.2⟩
    obtain ⟨b1, b2, -, b4⟩ := ros_max_dt_partial P hO heps C solve sys jac x t dt h h' r hdir hr
    rcases ros_try_result P C solve sys jac x t dt h h' r hr with ⟨hc, rfl, -, -⟩ | ⟨-, s, w, err, h1, -, h2, h3, h4, h5, h6, h7⟩
    · refine ⟨back b1, by simp, fun _ => ⟨rfl, ?_⟩⟩
      change |P.maxDt| ≤ |dt|
      rw [hO] at hc
      have z' : (!(realOps eps).eq P.maxDt (lit 0)) = true := by simp [realOps, lit, h0]
      rw [z', Bool.true_and, TimeArith.lessWithSign] at hc
      rcases hdir with ⟨h1, h2⟩ | ⟨h1, h2⟩
      · rw [if_pos (by simpa [realOps, NumOps.time, lit] using h2)] at hc
        rw [abs_of_pos h1, abs_of_pos h2]
        simp only [realOps, NumOps.time, decide_eq_true_eq] at hc
        linarith
      · rw [if_neg (by simpa [realOps, NumOps.time, lit] using h2.le)] at hc
        rw [abs_of_neg h1, abs_of_neg h2]
        simp only [realOps, NumOps.time, decide_eq_true_eq] at hc
        linarith
    · refine ⟨back b1, fun hs => by rw [h4, if_pos hs], fun hs => ⟨by rw [h4, if_neg (by rw [hs]; simp)], ?_⟩⟩
      obtain ⟨c, c1, c2, -, c4, -⟩ := rosDecide_factor (eps := eps) (rosMem h) dt err
      have he : ¬ err ≤ 1 := by
        intro he
        rw [h3, hO] at hs
        have hle : (realOps eps).le err (lit 1) = true := by simp [realOps, lit, he]
        unfold rosDecide at hs
        simp [hle] at hs
      rw [h5, hO, rosDecide_limit _ h0, if_neg he, c1, abs_mul, abs_of_pos (by linarith : 0 < c)]
      nlinarith [abs_nonneg dt, c4 (not_le.mp he)]

/-- **C83, integrate functions with `rosenbrock4_controller`**: `(sys, jac)` and `(sys', jac')` may differ outside of the interval of the integration as they
like.  The limit of the step size is absent or points in the direction of integration. -/
theorem integrate_rosenbrock_inside {e : ℝ} (P : RosParams ℝ V) (hO : P.O = realOps e) (he : 0 ≤ e) (solve : ℝ → Mat → V → V)
    (obs : Observer (W × Log V ℝ) V ℝ) (eps : ℝ) (heps : 0 ≤ eps) (q : Heap ℝ V W) (x : V) (t0 t1 dt : ℝ) (hdt : dt ≠ 0)
    (hm : P.maxDt = 0 ∨ SameDir dt P.maxDt) (n : ℕ) (times : List ℝ) (sys sys' : Sys ℝ V W) (jac jac' : Jac ℝ V W Mat) :
    let st := fun (f : Sys ℝ V W) (J : Jac ℝ V W Mat) => controlledObject (rosTry4 P defaultRosenbrock solve f J)
    let Agree := fun I : Set ℝ => (∀ t ∈ I, ∀ x, sys x t = sys' x t) ∧ (∀ t ∈ I, ∀ x, jac x t = jac' x t)
    (Agree (during eps dt t0 (t0 + n * dt)) →
      integrateNStepsControlled (TimeArith.exact ℝ eps) (st sys jac) obs q x t0 dt n = integrateNStepsControlled (TimeArith.exact ℝ eps) (st sys' jac') obs q x t0 dt n) ∧
    (Agree (during (2 * eps) dt t0 t1) →
      integrateConstControlled (TimeArith.exact ℝ eps) (st sys jac) obs q x t0 t1 dt = integrateConstControlled (TimeArith.exact ℝ eps) (st sys' jac') obs q x t0 t1 dt) ∧
    (Agree (during eps dt t0 t1) →
      integrateAdaptiveControlled (TimeArith.exact ℝ eps) (st sys jac) obs q x t0 t1 dt =
        integrateAdaptiveControlled (TimeArith.exact ℝ eps) (st sys' jac') obs q x t0 t1 dt) ∧
    (Agree (duringTimes times) →
      integrateTimesControlled (TimeArith.exact ℝ eps) (st sys jac) obs q x times dt =
        integrateTimesControlled (TimeArith.exact ℝ eps) (st sys' jac') obs q x times dt) := by
  intro st Agree
  have key := integrate_tries_inside (Sy := Sys ℝ V W × Jac ℝ V W Mat)
    (fun I a b => (∀ t ∈ I, ∀ x, a.1 x t = b.1 x t) ∧ (∀ t ∈ I, ∀ x, a.2 x t = b.2 x t)) (fun a => st a.1 a.2) ?_ dt hdt (Ok := fun _ => True) ?_ obs eps heps q trivial x t0 t1 n times
    (sys, jac) (sys', jac')
  · exact key
  · intro I a b hab q x t d hs
    have : rosTry4 P defaultRosenbrock solve a.1 a.2 (.user 0) t d = rosTry4 P defaultRosenbrock solve b.1 b.2 (.user 0) t d :=
      rosTry4_agree P solve (fun τ hτ => hab.1 τ (hs hτ)) (hab.2 t (hs (start_mem t d))) _
    simp only [st, controlledObject, this]
  · intro a
    refine TriesForward.on ?_
    intro q x t d w r w' e1 hd
    simp only [st, controlledObject] at e1
    cases hc : rosTry4 P defaultRosenbrock solve a.1 a.2 (.user 0) t d ((q.set (.user 0) x).withWorld w.1) with
    | ok r' h' =>
      rw [hc] at e1
      cases e1
      exact rosTry4_forward P hO he defaultRosenbrock solve a.1 a.2 dt hm 0 t d _ _ _ hd hc
    | err _ _ => rw [hc] at e1; cases e1
    | ub => rw [hc] at e1; cases e1
    | div => rw [hc] at e1; cases e1

/-- A concrete case: `x' = - x / t`, with Jacobian `- 1 / t`, both throwing for `t ≤ 0`.  `integrate_adaptive` from `1` to `3` never meets the exception,
whatever the error estimate is, and hence does the same as with functions that do not throw. -/
example (error : ℝ → ℝ → ℝ → ℝ) (q : Heap ℝ ℝ Unit) :
    let P : RosParams ℝ ℝ := ⟨realOps 0, 0, error⟩
    let solve : ℝ → ℝ → ℝ → ℝ := fun c J b => b / (c - J)
    let sys : Sys ℝ ℝ Unit := fun x t => pure (-x / t)
    let jac : Jac ℝ ℝ Unit ℝ := fun x t => pure (-1 / t, x / t ^ 2)
    let bad : Sys ℝ ℝ Unit := fun x t => if t ≤ 0 then M.throw (.user 7) else sys x t
    let badJac : Jac ℝ ℝ Unit ℝ := fun x t => if t ≤ 0 then M.throw (.user 8) else jac x t
    integrateAdaptiveControlled (TimeArith.exact ℝ 0) (controlledObject (rosTry4 P defaultRosenbrock solve bad badJac)) recordObserver q 5 1 3 (1 / 10) =
      integrateAdaptiveControlled (TimeArith.exact ℝ 0) (controlledObject (rosTry4 P defaultRosenbrock solve sys jac)) recordObserver q 5 1 3 (1 / 10) := by
  intro P solve sys jac bad badJac
  refine (integrate_rosenbrock_inside P rfl le_rfl solve recordObserver 0 le_rfl q 5 1 3 (1 / 10) (by norm_num) (Or.inl rfl) 0 [] bad sys badJac jac).2.2.1 ?_
  have pos : ∀ t ∈ during (0 : ℝ) (1 / 10) 1 3, ¬ t ≤ 0 := by
    intro t ht
    unfold during at ht
    rw [if_pos (by norm_num)] at ht
    have := ht.1
    exact not_le.2 (by linarith)
  exact ⟨fun t ht x => by simp only [bad, if_neg (pos t ht)], fun t ht x => by simp only [badJac, if_neg (pos t ht)]⟩

end Verif
