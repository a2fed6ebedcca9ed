import Verif.Props.Interval
import Verif.Props.DenseFsal
import Verif.Lemmas.DopriDenseRun
import Verif.Lemmas.RunEval
import Verif.Lemmas.Butcher

/-!
# C83: where the right-hand side is evaluated outside of the integration

`integrate_const` with a dense output stepper evaluates it after the end, because it makes steps until the current time has passed the next grid
point, with the step sizes of the stepper.
-/

set_option linter.unusedSectionVars false

namespace Verif
variable {W : Type} {d : ℕ}

/-- the right-hand side `0`, until the time `1`; afterwards the system function does something else -/
noncomputable def zeroUntilOne (late : M W (Fin d → ℝ)) : Sys ℝ (Fin d → ℝ) W := fun _ t => if t ≤ 1 then pure 0 else late

/-- a Dormand-Prince step before the time `1` -/
theorem dopri5Step_before (late : M W (Fin d → ℝ)) (x : Fin d → ℝ) {t h : ℝ} (h0 : 0 ≤ h) (h1 : t + h ≤ 1) (w : W) :
    ∃ y, dopri5Step (zeroUntilOne late) x 0 t h w = .ok ⟨0, 0, 0, 0, y, 0⟩ w := by
  unfold dopri5Step
  have l : ∀ (k : Fin d → ℝ) (c : ℝ), c ≤ 1 → zeroUntilOne late k (t + h * c) w = .ok (0 : Fin d → ℝ) w := by
    intro k c hc
    rw [zeroUntilOne, if_pos (by nlinarith)]; rfl
  have l1 : ∀ (k : Fin d → ℝ), zeroUntilOne late k (t + h) w = .ok (0 : Fin d → ℝ) w := by
    intro k
    rw [zeroUntilOne, if_pos h1]; rfl
  rw [M.bind_ok (l _ _ (by norm_num [frac, lit])), M.bind_ok (l _ _ (by norm_num [frac, lit])), M.bind_ok (l _ _ (by norm_num [frac, lit])),
    M.bind_ok (l _ _ (by norm_num [frac, lit])), M.bind_ok (l1 _)]
  rw [M.bind_ok (l1 _)]
  exact ⟨_, rfl⟩

/-- a step across the time `1` -/
theorem dopri5Step_across (late : M W (Fin d → ℝ)) (x : Fin d → ℝ) (w : W) :
    ∃ f : (Fin d → ℝ) → M W (Dopri5Result (Fin d → ℝ)), dopri5Step (zeroUntilOne late) x 0 (3 / 10) (27 / 20) w = (late >>= f) w := by
  unfold dopri5Step
  have l : ∀ (k : Fin d → ℝ) (c : ℝ), c ≤ 3 / 10 → zeroUntilOne late k (3 / 10 + 27 / 20 * c) w = .ok (0 : Fin d → ℝ) w := by
    intro k c hc
    rw [zeroUntilOne, if_pos (by linarith)]; rfl
  rw [M.bind_ok (l _ _ (by norm_num [frac, lit])), M.bind_ok (l _ _ (by norm_num [frac, lit]))]
  rw [show ∀ k : Fin d → ℝ, zeroUntilOne late k (3 / 10 + 27 / 20 * frac 4 5) = late from fun k => by
    rw [zeroUntilOne, if_neg (by norm_num [frac, lit])]]
  exact ⟨_, rfl⟩

theorem incFactor_zero {e : ℝ} (he : e ≤ 0) : incFactor e 5 = 9 / 2 := by
  unfold incFactor
  rw [if_pos (by linarith), max_eq_left (he.trans (Real.rpow_nonneg (by norm_num) _)), ← Real.rpow_mul (by norm_num)]
  norm_num

theorem controlUpTo_check (τ : Tolerances) (h : ℝ) : ¬ (τ.controlUpTo d 5 4 0).adjuster.checkStepSizeLimit h = false := by
  simp [Tolerances.controlUpTo, defaultAdjuster, checkStepSizeLimit, realOps, lit]

/-- the first step of the dense output stepper -/
theorem dense_first_step (τ : Tolerances) (hτ : τ.Valid) (late : M W (Fin d → ℝ)) (x : Fin d → ℝ) (w : W) :
    ∃ y, dopri5Trials (τ.controlUpTo d 5 4 0) (zeroUntilOne late) x 0 0 defaultMaxSteps (3 / 10) w =
      .ok (.done ⟨0, 0, 0, 0, y, 0⟩ (3 / 10) (27 / 20)) w := by
  obtain ⟨y, e⟩ := dopri5Step_before late x (t := 0) (h := 3 / 10) (by norm_num) (by norm_num) w
  have herr : dopri5Error (0 : Fin d → ℝ) (3 / 10 : ℝ) ⟨0, 0, 0, 0, y, 0⟩ = 0 := by simp [dopri5Error, lin_exact]
  have hle : ((τ.controlUpTo d 5 4 0).checker.error x 0 (dopri5Error (0 : Fin d → ℝ) (3 / 10 : ℝ) ⟨0, 0, 0, 0, y, 0⟩) (3 / 10)).2 ≤ 0 := by
    have := checker_le hτ x 0 (0 : Fin d → ℝ) (3 / 10)
    rw [herr]
    rw [norm_zero, zero_div] at this
    exact this
  have ht : dopri5Trial (τ.controlUpTo d 5 4 0) (zeroUntilOne late) x 0 0 (3 / 10) w = .ok (.accepted ⟨0, 0, 0, 0, y, 0⟩
      ((τ.controlUpTo d 5 4 0).checker.error x 0 (dopri5Error (0 : Fin d → ℝ) (3 / 10 : ℝ) ⟨0, 0, 0, 0, y, 0⟩) (3 / 10)).2 (27 / 20)) w := by
    unfold dopri5Trial
    rw [if_neg (controlUpTo_check τ _), M.bind_ok e]
    rw [if_neg (show ¬ (τ.controlUpTo d 5 4 0).gtOne _ = true by simp only [Tolerances.controlUpTo, decide_eq_true_eq, not_lt]; exact hle.trans zero_le_one)]
    rw [show (τ.controlUpTo d 5 4 0).adjuster.increaseStep = (defaultAdjuster (realOps 0) 0).increaseStep from rfl,
      show (τ.controlUpTo d 5 4 0).stepperOrder = 5 from rfl, increase_step_formula, if_pos (hle.trans_lt (by norm_num)), incFactor_zero hle]
    norm_num [limitStep]
    rfl
  refine ⟨y, ?_⟩
  show dopri5Trials _ _ _ _ _ (499 + 1) _ _ = _
  unfold dopri5Trials
  rw [ht]
  norm_num

/-- the second step of the dense output stepper -/
theorem dense_second_step (τ : Tolerances) (x : Fin d → ℝ) (w : W) :
    dopri5Trials (τ.controlUpTo d 5 4 0) (zeroUntilOne fun _ => .ub) x 0 (3 / 10) defaultMaxSteps (27 / 20) w = .ub ∧
    dopri5Trials (τ.controlUpTo d 5 4 0) (zeroUntilOne fun _ => .div) x 0 (3 / 10) defaultMaxSteps (27 / 20) w = .div := by
  refine ⟨?_, ?_⟩ <;> show dopri5Trials _ _ _ _ _ (499 + 1) _ _ = _ <;> unfold dopri5Trials
  · obtain ⟨f, e⟩ := dopri5Step_across (fun _ => .ub) x w
    have : dopri5Trial (τ.controlUpTo d 5 4 0) (zeroUntilOne fun _ => .ub) x 0 (3 / 10) (27 / 20) w = .ub := by
      unfold dopri5Trial
      rw [if_neg (controlUpTo_check τ _), M.bind_apply, e]
      rfl
    rw [this]
  · obtain ⟨f, e⟩ := dopri5Step_across (fun _ => .div) x w
    have : dopri5Trial (τ.controlUpTo d 5 4 0) (zeroUntilOne fun _ => .div) x 0 (3 / 10) (27 / 20) w = .div := by
      unfold dopri5Trial
      rw [if_neg (controlUpTo_check τ _), M.bind_apply, e]
      rfl
    rw [this]

/-- `initialize` and the first `do_step` -/
theorem dense_two_steps (τ : Tolerances) (hτ : τ.Valid) (late : M W (Fin d → ℝ)) (q : Heap ℝ (Fin d → ℝ) W) (x : Fin d → ℝ) (w : W)
    (l : Log (Fin d → ℝ) ℝ) :
    let st := denseObject (τ.controlUpTo d 5 4 0) (zeroUntilOne late)
    ∃ q1, st.init q x 0 (3 / 10) (w, l) = .ok q1 (w, l) ∧ st.curTime q1 = 0 ∧ st.curDt q1 = 3 / 10 ∧
      ∀ l', ∃ q2, st.doStep q1 (w, l') = .ok q2 (w, l') ∧ st.curTime q2 = 3 / 10 ∧ st.curDt q2 = 27 / 20 ∧
        ∃ a : DopriDense ℝ (Fin d → ℝ) W, a.InHeap q2 ∧ a.t = 3 / 10 ∧ a.dt = 27 / 20 ∧ a.k = some 0 := by
  intro st
  set h0 := (q.set (.user 0) x).withWorld w with hh0
  obtain ⟨a, ha, hw, -⟩ := inHeap_exists h0
  have E := dopri_dense_call (τ.controlUpTo d 5 4 0) (zeroUntilOne late) (.init 0 0 (3 / 10)) h0 a ha
  rcases E with E | E
  · cases E
  simp only [dopriDenseCall, DopriDense.call, SameRes] at E
  cases hres : fsalDenseInit (.user 0) (0 : ℝ) (3 / 10) h0 with
  | err => rw [M.bind_err hres] at E; exact E.elim
  | ub => rw [M.bind_ub hres] at E; exact E.elim
  | div => rw [M.bind_div hres] at E; exact E.elim
  | ok u q1 =>
    rw [M.bind_ok hres] at E
    obtain ⟨-, E⟩ := E
    have hw1 : q1.world = w := E.world.trans (hw.trans rfl)
    refine ⟨q1, ?_, E.t, E.dt, fun l' => ?_⟩
    · simp only [st, denseObject, ← hh0, hres, hw1]
    have D := dopri_dense_do_step (τ.controlUpTo d 5 4 0) (zeroUntilOne late) (q1.withWorld w) _ (inHeap_withWorld E w)
    obtain ⟨y, e⟩ := dense_first_step τ hτ late (a.user 0) w
    unfold DopriDense.step DopriDense.deriv at D
    dsimp only at D
    rw [show zeroUntilOne late (a.user 0) 0 w = .ok 0 w by rw [zeroUntilOne, if_pos zero_le_one]; rfl] at D
    dsimp only at D
    rw [e] at D
    cases hd : fsalDenseDoStep (τ.controlUpTo d 5 4 0) dopri5ErrImpl (zeroUntilOne late) (q1.withWorld w) with
    | err => rw [hd] at D; exact D.elim
    | ub => rw [hd] at D; exact D.elim
    | div => rw [hd] at D; exact D.elim
    | ok u q2 =>
      rw [hd] at D
      obtain ⟨-, D⟩ := D
      refine ⟨q2, ?_, D.t, D.dt, _, D, rfl, rfl, rfl⟩
      simp only [st, denseObject, hd]
      rw [D.world]

/-- the second `do_step` has undefined behaviour if the system function has, and does not return if the system function does not -/
theorem dense_third_step (τ : Tolerances) {q : Heap ℝ (Fin d → ℝ) W} {a : DopriDense ℝ (Fin d → ℝ) W} (ha : a.InHeap q) (ht : a.t = 3 / 10)
    (hdt : a.dt = 27 / 20) (hk : a.k = some 0) (w : W) (l : Log (Fin d → ℝ) ℝ) :
    (denseObject (τ.controlUpTo d 5 4 0) (zeroUntilOne fun _ => .ub)).doStep q (w, l) = .ub ∧
    (denseObject (τ.controlUpTo d 5 4 0) (zeroUntilOne fun _ => .div)).doStep q (w, l) = .div := by
  obtain ⟨e1, e2⟩ := dense_second_step τ a.x w
  constructor
  · have D := dopri_dense_do_step (τ.controlUpTo d 5 4 0) (zeroUntilOne fun _ => .ub) (q.withWorld w) _ (inHeap_withWorld ha w)
    unfold DopriDense.step DopriDense.deriv at D
    simp only [hk, ht, hdt, M.pure_apply, e1] at D
    cases hd : fsalDenseDoStep (τ.controlUpTo d 5 4 0) dopri5ErrImpl (zeroUntilOne fun _ => .ub) (q.withWorld w) with
    | ok => rw [hd] at D; exact D.elim
    | err => rw [hd] at D; exact D.elim
    | div => rw [hd] at D; exact D.elim
    | ub => simp only [denseObject, hd]
  · have D := dopri_dense_do_step (τ.controlUpTo d 5 4 0) (zeroUntilOne fun _ => .div) (q.withWorld w) _ (inHeap_withWorld ha w)
    unfold DopriDense.step DopriDense.deriv at D
    simp only [hk, ht, hdt, M.pure_apply, e2] at D
    cases hd : fsalDenseDoStep (τ.controlUpTo d 5 4 0) dopri5ErrImpl (zeroUntilOne fun _ => .div) (q.withWorld w) with
    | ok => rw [hd] at D; exact D.elim
    | err => rw [hd] at D; exact D.elim
    | ub => rw [hd] at D; exact D.elim
    | div => simp only [denseObject, hd]

theorem whileM_first_bad {σ W : Type} {cond : σ → Bool} {body : σ → M W σ} {s : σ} {w : W} (hc : cond s = true) :
    (body s w = .ub → whileM cond body s w = .ub) ∧ (body s w = .div → whileM cond body s w = .div) := by
  constructor <;> intro hb <;> rw [whileM_unfold, if_pos hc] <;> simp [M.bind_apply, hb]

/-- `integrate_const` reaches the second step. -/
theorem const_dense_reaches (τ : Tolerances) (hτ : τ.Valid) (late : M W (Fin d → ℝ)) (q : Heap ℝ (Fin d → ℝ) W) (x : Fin d → ℝ) (w : W)
    (l : Log (Fin d → ℝ) ℝ) {r : Res (W × Log (Fin d → ℝ) ℝ) (Heap ℝ (Fin d → ℝ) W)} (hr : r = .ub ∨ r = .div)
    (hthird : ∀ q2 (a : DopriDense ℝ (Fin d → ℝ) W), a.InHeap q2 → a.t = 3 / 10 → a.dt = 27 / 20 → a.k = some 0 → ∀ l',
      (denseObject (τ.controlUpTo d 5 4 0) (zeroUntilOne late)).doStep q2 (w, l') = r) :
    (r = .ub → integrateConstDense (TimeArith.exact ℝ 0) (denseObject (τ.controlUpTo d 5 4 0) (zeroUntilOne late)) recordObserver q x 0 1 (3 / 10) (w, l) =
      .ub) ∧
    (r = .div → integrateConstDense (TimeArith.exact ℝ 0) (denseObject (τ.controlUpTo d 5 4 0) (zeroUntilOne late)) recordObserver q x 0 1 (3 / 10) (w, l) =
      .div) := by
  obtain ⟨q1, e1, t1, d1, H⟩ := dense_two_steps τ hτ late q x w l
  obtain ⟨q2, e2, t2, d2, a, ha, h1, h2, h3⟩ := H (l ++ [.obs x 0])
  have e3 := hthird q2 a ha h1 h2 h3 (l ++ [.obs x 0])
  generalize denseObject (τ.controlUpTo d 5 4 0) (zeroUntilOne late) = st at *
  have hobs : (recordObserver x (0 : ℝ) : M (W × Log (Fin d → ℝ) ℝ) Unit) (w, l) = .ok () (w, l ++ [.obs x 0]) := rfl
  refine ⟨?_, ?_⟩ <;> intro hr' <;> unfold integrateConstDense <;> rw [M.bind_ok e1, M.bind_ok hobs]
  all_goals first | refine M.bind_ub ?_ _ | refine M.bind_div ?_ _
  · refine (whileM_first_bad (by norm_num [TimeArith.lessEqWithSign, TimeArith.exact])).1 ?_
    rw [M.bind_ok (whileM_stop (by norm_num [TimeArith.lessEqWithSign, TimeArith.exact, t1]))]
    rw [if_pos (by norm_num [TimeArith.lessWithSign, TimeArith.exact, t1, d1])]
    rw [whileM_step_ok (s' := ⟨q2, x, _, _, _⟩) (by norm_num [TimeArith.lessEqWithSign, TimeArith.exact, t1]) (by rw [M.bind_ok e2]; rfl)]
    refine (whileM_first_bad (by norm_num [TimeArith.lessEqWithSign, TimeArith.exact, t2])).1 ?_
    rw [M.bind_apply, e3, hr']
  · refine (whileM_first_bad (by norm_num [TimeArith.lessEqWithSign, TimeArith.exact])).2 ?_
    rw [M.bind_ok (whileM_stop (by norm_num [TimeArith.lessEqWithSign, TimeArith.exact, t1]))]
    rw [if_pos (by norm_num [TimeArith.lessWithSign, TimeArith.exact, t1, d1])]
    rw [whileM_step_ok (s' := ⟨q2, x, _, _, _⟩) (by norm_num [TimeArith.lessEqWithSign, TimeArith.exact, t1]) (by rw [M.bind_ok e2]; rfl)]
    refine (whileM_first_bad (by norm_num [TimeArith.lessEqWithSign, TimeArith.exact, t2])).2 ?_
    rw [M.bind_apply, e3, hr']

/-- **C83 is violated by `integrate_const` with a dense output stepper**: for states with any number of components, all tolerances and every start
state, the call from `0` to `1` with `dt = 0.3` and the right-hand side `0` uses the system function after the time `1`.  (It is called at the time
`1.38`: after an accepted first step to `0.3`, the stepper is asked for another step, of size `1.35`.) -/
theorem integrate_const_dense_outside (τ : Tolerances) (hτ : τ.Valid) (q : Heap ℝ (Fin d → ℝ) W) (x : Fin d → ℝ) (w : W) (l : Log (Fin d → ℝ) ℝ) :
    ¬ UsesOnly (during 0 (3 / 10) 0 1) (fun sys : Sys ℝ (Fin d → ℝ) W =>
      integrateConstDense (TimeArith.exact ℝ 0) (denseObject (τ.controlUpTo d 5 4 0) sys) recordObserver q x 0 1 (3 / 10) (w, l)) := by
  intro h
  have := h (zeroUntilOne fun _ => .ub) (zeroUntilOne fun _ => .div) fun t ht y => by
    unfold during at ht
    rw [if_pos (by norm_num)] at ht
    have h1 : t ≤ 1 := by simpa using ht.2
    rw [zeroUntilOne, zeroUntilOne, if_pos h1, if_pos h1]
  dsimp only at this
  rw [(const_dense_reaches τ hτ _ q x w l (.inl rfl) fun q2 a ha h1 h2 h3 l' => (dense_third_step τ ha h1 h2 h3 w l').1).1 rfl,
    (const_dense_reaches τ hτ _ q x w l (.inr rfl) fun q2 a ha h1 h2 h3 l' => (dense_third_step τ ha h1 h2 h3 w l').2).2 rfl] at this
  cases this

/-- the hypothesis is met by tolerances of one millionth -/
example : (⟨1 / 10 ^ 6, 1 / 10 ^ 6, 1, 1⟩ : Tolerances).Valid := ⟨by norm_num, by norm_num, by norm_num, by norm_num⟩

end Verif
