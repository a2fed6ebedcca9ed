import Verif.Lemmas.ExtrapolationRegular
import Verif.Lemmas.ExtrapolationInPlace
import Verif.Props.ControlledRunWitness
import Verif.Props.AdamsDefaultInit

/-! # C70: integration with `extrapolation_stepper` -/

namespace Verif
open Finset BSeries

variable {W : Type} {d : ℕ}

/-- `try_step( sys , x , t , dt )` of `controlled_runge_kutta< extrapolation_stepper< Order > >`. -/
theorem extrapolation_try_step_contract {K V : Type} [Field K] [AddCommGroup V] [Module K V] (P : CtrlParams K V) (kmax : ℕ) (hk1 : 1 ≤ kmax)
    (hk : kmax < 32767) (sys : Sys K V W) (x : ℕ) (t dt : K) (h : Heap K V W) :
    Computes [.midp, .extrap, .base, .ctrl, .cache] h (tryStep1 P (extrapolationErrImpl kmax) sys (.user x) t dt)
      (do let k ← sys (h.state (.user x)) t
          trial P (extrapolationErrStep kmax) sys (h.state (.user x)) k t dt)
      (Trial.out t dt) (Trial.inPlace (.user x)) [] := by
  refine Computes.sys (by simp [mCtrlDxdt, Loc.ownedBy]) rfl fun k w => ?_
  have n1 : Loc.user x ≠ mCtrlDxdt := by simp [mCtrlDxdt]
  have := tryStep2_computes_of (os := [.midp, .extrap]) (exc := [mXnew]) (by simp) (by simp [mXerr, Loc.ownedBy]) (by simp [mXnew, Loc.ownedBy])
    P (extrapolationErrImpl kmax) (extrapolationErrStep kmax) sys (.user x) mCtrlDxdt t dt (h.put mCtrlDxdt k w)
    (ownedBy_user _ _) (by simp [mCtrlDxdt, Loc.ownedBy]) (ownedBy_user _ _) (by simp [mCtrlDxdt, mXnew])
    (by simp [mCtrlDxdt, mXerr])
    (extrapolationErr_implements kmax hk1 hk sys _ _ _ _ t dt _ (ownedBy_user _ _) (by simp [mCtrlDxdt, Loc.ownedBy])
      (by simp [mXnew, Loc.ownedBy]) (by simp [mXnew]) (by simp [mCtrlDxdt, mXnew]))
  rw [Heap.put_state_ne _ _ _ n1] at this
  simp only [Heap.put_state_self] at this
  exact this.mono (by simp)

theorem extrapolationErrStep_value {V : Type} [NormedAddCommGroup V] [NormedSpace ℝ V] {sys : Sys ℝ V W} {f : V → ℝ → V} (hs : Evaluates sys f)
    (kmax : ℕ) (x : V) (t h : ℝ) (w : W) : ∃ w', extrapolationErrStep kmax sys x (f x t) t h w =
      .ok (extrapolated f kmax kmax x t h, extrapolated f kmax kmax x t h - extrapolated f (kmax - 1) kmax x t h) w' := by
  obtain ⟨ys, w2, e2, e3⟩ := extrapolationResults_value hs kmax x t h w
  refine ⟨w2, ?_⟩
  unfold extrapolationErrStep
  rw [M.bind_ok e2, lin_pair, neville_congr _ _ _ kmax kmax e3, neville_congr _ _ _ (kmax - 1) kmax e3]
  simp [lit, sub_eq_add_neg, M.pure_apply, extrapolated]

/-- **C70**: the integrate functions with `controlled_runge_kutta< extrapolation_stepper< Order > >`, `Order = 2 kmax + 2`, with the default error
checker and step adjuster, for a smooth and Lipschitz continuous right hand side. -/
theorem controlled_extrapolation_integrates (kmax : ℕ) (hk1 : 1 ≤ kmax) (hk : kmax < 32767) {sys : Sys ℝ (Fin d → ℝ) W}
    {f : (Fin d → ℝ) → ℝ → Fin d → ℝ} (hs : Evaluates sys f) (hf : GoodRhs f (2 * kmax + 3)) {φ : ℝ → Fin d → ℝ} (hφ : IsFlowLine f φ) :
    IntegratesReliably (2 * kmax + 2) f (fun x t h r => ∀ w, ∃ w', extrapolationErrStep kmax sys x (f x t) t h w = .ok r w')
      (fun τ maxDt => controlledObject (K := ℝ) fun l t dt =>
        tryStep1 (τ.controlUpTo d (2 * kmax + 2) (2 * kmax) maxDt) (extrapolationErrImpl kmax) sys l t dt) (fun _ => True) φ := by
  have h1 := extrapolated_isRk f kmax kmax
  have h2 := extrapolated_isRk f (kmax - 1) kmax
  exact reliable_of_tryVal (p := 2 * kmax + 2) (q := 2 * kmax) (by omega) (by omega) hf hφ
    (fun τ maxDt _ => tryVal_of_contract hs (extrapolationErrStep_value hs kmax) τ maxDt fun t dt h =>
      extrapolation_try_step_contract _ kmax hk1 hk sys 0 t dt h) (h1.regular hf) (growth_sub hf h1 h2)
    (fun t => neville_gragg_order (d := kmax) (k := kmax) le_rfl (hf.smoothAt (by omega) _ _) (hφ.isSolution t))
    (fun x t h w => extrapolationErrStep_value hs kmax x t h w) fun _ _ _ _ => trivial

/-- `controlled_runge_kutta< extrapolation_stepper< 8 > >` and the harmonic oscillator -/
theorem oscillator_extrapolation :
    IntegratesReliably 8 oscillator (fun x t h r => ∀ w, ∃ w', extrapolationErrStep 3 (countSys oscillator) x (oscillator x t) t h w = .ok r w')
      (fun τ maxDt => controlledObject (K := ℝ) fun l t dt => tryStep1 (τ.controlUpTo 2 8 6 maxDt) (extrapolationErrImpl 3) (countSys oscillator) l t dt)
      (fun _ => True) fun t i => if i = 0 then Real.sin t else Real.cos t :=
  controlled_extrapolation_integrates 3 (by norm_num) (by norm_num) oscillator_evaluates (oscillator_good 9) oscillator_solution

/-- **C70 fails for the stepper itself**: the integrate functions call `do_step( sys , x , t , dt )`; `x' = 1` then moves by `c dt` in each step,
with a `c ≥ 1 + kmax ≥ 2` that depends on the order only. -/
theorem extrapolation_integration_wrong (kmax : ℕ) (hk1 : 1 ≤ kmax) (hk : kmax < 32767) :
    ∃ c : ℝ, 2 ≤ c ∧ ∀ (eps t0 dt x0 : ℝ) (n : ℕ) (q : Heap ℝ ℝ W) (w : W) (l : Log ℝ ℝ),
      ∃ w' l', integrateNStepsBasic (TimeArith.exact ℝ eps) (stepperObject fun l t dt => doStep1 (extrapolationImpl kmax) unitSys l t dt)
          recordObserver q x0 t0 dt n (w, l) = .ok (x0 + n * (c * dt), t0 + n * dt) (w', l') := by
  obtain ⟨c, hc, H⟩ := extrapolationImpl_unit (W := W) kmax hk (.user 0) (ownedBy_user _ _)
  refine ⟨c, by
    have : (1 : ℝ) ≤ kmax := by exact_mod_cast hk1
    linarith, fun eps t0 dt x0 n q w l => ?_⟩
  have hst : StepFn (stepperObject (W := W) (K := ℝ) fun l t dt => doStep1 (extrapolationImpl kmax) unitSys l t dt) (fun _ _ _ => True)
      fun x _ h => x + c * h := by
    intro q x t h w l _
    obtain ⟨h', e1, e2, e3, -⟩ := H mDxdt (by simp [mDxdt, Loc.ownedBy]) (by simp [mDxdt]) (((q.set (.user 0) x).withWorld w).put mDxdt 1 w) t h
      (by simp)
    refine ⟨h', h'.world, ?_, trivial⟩
    have e : doStep1 (extrapolationImpl kmax) unitSys (.user 0) t h ((q.set (.user 0) x).withWorld w) = .ok () h' := by
      unfold doStep1
      rw [M.bind_ok (m := callSys unitSys (.user 0) mDxdt t) (w' := ((q.set (.user 0) x).withWorld w).put mDxdt 1 w) (a := ()) rfl]
      exact e1
    have hx : h'.state (.user 0) = x + c * h := by
      rw [e3, Heap.put_state_ne _ _ _ (by simp [mDxdt])]
      simp [Heap.withWorld, Heap.set]
    simp only [stepperObject, e, hx]
  obtain ⟨w', e⟩ := follow_nSteps (hst.follows t0 dt x0) eps n q w l trivial
  have horb : ∀ n : ℕ, orbit (fun x (_ : ℝ) h => x + c * h) t0 dt x0 n = x0 + n * (c * dt) := by
    intro n
    induction n with
    | zero => simp [orbit]
    | succ n ih => rw [orbit, ih]; push_cast; ring
  rw [horb n, show orbit (fun x (_ : ℝ) h => x + c * h) t0 dt x0 0 = x0 from rfl] at e
  exact ⟨w', _, e⟩

/-- Thus `extrapolation_stepper< Order >` does not converge in the integrate functions, not even with order one. -/
theorem extrapolation_not_convergent (kmax : ℕ) (hk1 : 1 ≤ kmax) (hk : kmax < 32767) [Inhabited W] (q : Heap ℝ ℝ W) (fresh : Heap ℝ ℝ W → Prop)
    (hq : fresh q) {p : ℕ} (hp : 1 ≤ p) :
    ¬ ConvergesWithOrder p (stepperObject (K := ℝ) (V := ℝ) (W := W) fun l t dt => doStep1 (extrapolationImpl kmax) unitSys l t dt) fresh fun t => t := by
  obtain ⟨c, hc, H⟩ := extrapolation_integration_wrong (W := W) kmax hk1 hk
  refine not_converges (r := 0) (γ := c - 1) (m := 1) hq default hp (by linarith) fun n _ hn => ?_
  obtain ⟨w', l', e⟩ := H 0 0 (1 / n) 0 n q default []
  have hn0 : (n : ℝ) ≠ 0 := by positivity
  refine ⟨w', l', ?_⟩
  rw [e]
  congr 2
  · field_simp
    ring
  · field_simp
    ring

/-- `x' = 1` is a smooth and Lipschitz continuous system with the solution `t`. -/
example : Evaluates (unitSys (W := Unit)) (fun _ _ => 1) ∧ GoodRhs (fun (_ : ℝ) (_ : ℝ) => (1 : ℝ)) 100 ∧ IsFlowLine (fun (_ : ℝ) (_ : ℝ) => (1 : ℝ)) fun t => t :=
  ⟨fun _ _ w => ⟨w, rfl⟩, ⟨contDiff_const, 0, by simp⟩, fun t => hasDerivAt_id t⟩

end Verif
