import Verif.Props.Iterator
import Verif.Props.Times
import Verif.Spec.Dense
import Verif.Lemmas.RunEval

/-!
# C15: `make_times_time_range` and `integrate_times`
-/

namespace Verif
variable {Q W S : Type} {K : Type} [Field K] [LinearOrder K] [IsStrictOrderedRing K]

/-- corresponding states of the two inner loops -/
structure InnerRel (dt next : K) (s : TimesState Q S K) (i : TimesIter Q S K) (w w' : W) : Prop where
  q : s.q = i.q
  x : s.x = i.x
  t : s.time = i.t
  stepSize : i.dt = dt
  atEnd : i.atEnd = false
  world : w = w'
  sign : SameDir dt s.dt
  before : 0 ≤ dirSign dt * (next - i.t)

theorem minAbs_exact_pos {dt d : K} (h : 0 < dt) :
    (TimeArith.exact K 0).minAbs dt d = min dt d := by
  simp only [TimeArith.minAbs, TimeArith.stdMin, TimeArith.exact, decide_eq_true_eq, h, if_true]
  rcases lt_or_ge d dt with h | h
  · rw [if_pos h, min_eq_right h.le]
  · rw [if_neg (not_lt.mpr h), min_eq_left h]

theorem minAbs_exact_neg {dt d : K} (h : dt < 0) :
    (TimeArith.exact K 0).minAbs dt d = max dt d := by
  simp only [TimeArith.minAbs, TimeArith.stdMax, TimeArith.exact, decide_eq_true_eq,
    not_lt.mpr h.le, if_false]
  rcases lt_or_ge dt d with h | h
  · rw [if_pos h, max_eq_right h.le]
  · rw [if_neg (not_lt.mpr h), max_eq_left h]

/-- a clipped step points in the direction of integration and does not pass the next time -/
theorem minAbs_step {dt d : K} (hdt : dt ≠ 0) (h : 0 < dirSign dt * d) :
    SameDir dt ((TimeArith.exact K 0).minAbs dt d) ∧
      0 ≤ dirSign dt * (d - (TimeArith.exact K 0).minAbs dt d) := by
  rcases lt_or_gt_of_ne hdt with hn | hp
  · rw [minAbs_exact_neg hn]
    have hs : dirSign dt = -1 := by simp [dirSign, not_lt.mpr hn.le]
    rw [hs] at h ⊢
    refine ⟨.inr ⟨hn, max_lt hn (by linarith)⟩, ?_⟩
    have := le_max_right dt d
    linarith
  · rw [minAbs_exact_pos hp]
    have hs : dirSign dt = 1 := by simp [dirSign, hp]
    rw [hs] at h ⊢
    refine ⟨.inl ⟨hp, lt_min hp (by linarith)⟩, ?_⟩
    have := min_le_right dt d
    linarith

theorem timesInner_rel (st : BasicStepper Q W S K) (dt next : K) (hdt : dt ≠ 0)
    {s : TimesState Q S K} {i : TimesIter Q S K} {w : W} (h : InnerRel dt next s i w w) :
    (plainCtx (Eq : W → W → Prop)).Rel
      (fun s' i' w w' => s'.q = i'.q ∧ s'.x = i'.x ∧ i'.t = next ∧ i'.dt = dt ∧ i'.atEnd = false ∧
        SameDir dt s'.dt ∧ w = w')
      (timesBasicInner (TimeArith.exact K 0) st dt next s w)
      (whileM (fun i : TimesIter Q S K => (TimeArith.exact K 0).lessWithSign i.t next i.dt)
        (fun i => do
          let cdt := (TimeArith.exact K 0).minAbs i.dt ((TimeArith.exact K 0).sub next i.t)
          let (q, x) ← st.doStep i.q i.x i.t cdt
          return { i with q := q, x := x, t := (TimeArith.exact K 0).add i.t cdt }) i w) := by
  refine (SimCtx.Rel.whileM (C := plainCtx (Eq : W → W → Prop)) (InnerRel dt next) ?_ ?_
    (fun _ => plainCtx_mono _ _) h).mono ?_
  · rintro s i w w' h
    rw [Bool.eq_iff_iff, exact_less, exact_less, h.t, h.stepSize, dirSign_of_sameDir h.sign]
  · rintro s i w w' h hc hc'
    obtain ⟨h1, h2, h3, h4, h5, rfl, h7, h8⟩ := h
    rw [exact_less, h4] at hc'
    obtain ⟨m1, m2⟩ := minAbs_step hdt hc'
    simp only [h1, h2, h3, h4]
    refine SimCtx.Rel.bind (R := fun r r' w w' => r = r' ∧ w = w') (plain_rel_refl _) ?_
      (fun _ => plainCtx_mono _ _)
    rintro ⟨q, x⟩ _ w _ ⟨rfl, rfl⟩
    refine .ok ⟨rfl, rfl, rfl, rfl, h5, rfl, m1, ?_⟩
    simp only [show ∀ a b, (TimeArith.exact K 0).add a b = a + b from fun _ _ => rfl,
      show ∀ a b, (TimeArith.exact K 0).sub a b = a - b from fun _ _ => rfl] at m2 ⊢
    have : next - (i.t + (TimeArith.exact K 0).minAbs dt (next - i.t)) =
      next - i.t - (TimeArith.exact K 0).minAbs dt (next - i.t) := by ring
    rw [this]; exact m2
  · rintro s i w w' ⟨⟨h1, h2, h3, h4, h5, rfl, h7, h8⟩, _, hc⟩
    rw [exact_less_false, h4] at hc
    refine ⟨h1, h2, ?_, h4, h5, h7, rfl⟩
    have h0 : dirSign dt * (next - i.t) = 0 := le_antisymm hc h8
    have := abs_dirSign_mul dt (next - i.t)
    rw [h0, abs_zero] at this
    have := abs_eq_zero.mp this.symm
    linarith

theorem timesLoop_eq (st : BasicStepper Q W S K) (obs : Observer W S K) (dt : K) (hdt : dt ≠ 0) :
    ∀ (l : List K) (t : K) (s : TimesState Q S K) (i : TimesIter Q S K) (w : W),
      MonotoneTimes dt (t :: l) → s.q = i.q → s.x = i.x → i.t = t → i.dt = dt → i.atEnd = false →
      i.rest = t :: l → SameDir dt s.dt →
    ((timesIterator (TimeArith.exact K 0) st).forEach obs i >>= fun i => (pure i.x : M W S)) w =
      (timesBasicLoop (TimeArith.exact K 0) st obs dt (t :: l) s >>= fun r => pure r.1) w := by
  intro l
  induction l with
  | nil =>
    intro t s i w _ h1 h2 h3 h4 h5 h6 h7
    unfold OdeIterator.forEach
    rw [whileM_true (by simp [timesIterator, h5])]
    simp only [timesIterator, h6, timesBasicLoop, bind_assoc, pure_bind, h2, h3]
    refine congrFun (congrArg (obs i.x t >>= ·) (funext fun _ => ?_)) w
    rw [whileM_false (by simp)]
    simp
  | cons next l ih =>
    intro t s i w hm h1 h2 h3 h4 h5 h6 h7
    unfold OdeIterator.forEach
    rw [whileM_true (by simp [timesIterator, h5])]
    simp only [timesBasicLoop, bind_assoc, h2]
    have hd : ((timesIterator (TimeArith.exact K 0) st).deref i) = (i.x, t) := by
      simp [timesIterator, h3]
    rw [hd]
    simp only
    rw [M.bind_apply, M.bind_apply]
    cases hob : obs i.x t w with
    | err e w1 => rfl
    | ub => rfl
    | div => rfl
    | ok u w1 =>
      simp only
      have hb : 0 ≤ dirSign dt * (next - i.t) := by
        have := (List.pairwise_cons.mp hm).1 next (by simp)
        rw [h3]
        rcases lt_or_gt_of_ne hdt with hn | hp
        · rw [if_neg (not_lt.mpr hn.le)] at this
          simp only [dirSign, not_lt.mpr hn.le, if_false]; linarith
        · rw [if_pos hp] at this
          simp only [dirSign, hp, if_true]; linarith
      have hrel := timesInner_rel st dt next hdt (s := { s with x := i.x, time := t }) (i := i) (w := w1)
        ⟨h1, rfl, h3.symm, h4, h5, rfl, h7, hb⟩
      have hinc : (timesIterator (TimeArith.exact K 0) st).increment i =
        (whileM (fun i : TimesIter Q S K => (TimeArith.exact K 0).lessWithSign i.t next i.dt)
        (fun i => do
          let cdt := (TimeArith.exact K 0).minAbs i.dt ((TimeArith.exact K 0).sub next i.t)
          let (q, x) ← st.doStep i.q i.x i.t cdt
          return { i with q := q, x := x, t := (TimeArith.exact K 0).add i.t cdt }) i >>= fun i =>
          pure { i with rest := next :: l }) := by
        simp only [timesIterator, h6]
      rw [hinc, bind_assoc]
      rw [M.bind_apply, M.bind_apply]
      generalize timesBasicInner (TimeArith.exact K 0) st dt next { s with x := i.x, time := t } w1 = r at hrel
      generalize whileM (fun i : TimesIter Q S K => (TimeArith.exact K 0).lessWithSign i.t next i.dt) _ i w1
        = r' at hrel
      cases hrel with
      | err h => have h : _ = _ := h; simp only [h]
      | esc h _ => exact absurd h id
      | ub => rfl
      | div => rfl
      | @ok s1 i1 w2 _ h =>
        obtain ⟨g1, g2, g3, g4, g5, g6, rfl⟩ := h
        simp only [pure_bind]
        exact ih next s1 { i1 with rest := next :: l } w2 (List.pairwise_cons.mp hm).2 g1 g2 g3 g4 g5 rfl g6

/-- C15 (`make_times_time_range`, plain steppers): with exact comparisons (`eps = 0`) and monotone times,
for every stepper and observer, running the observer over the range has exactly the same effects and the same
outcome as `integrate_times` (both have undefined behaviour for an empty sequence of times). -/
theorem times_range_eq_integrate (st : BasicStepper Q W S K) (obs : Observer W S K) (q : Q) (x : S)
    (times : List K) (dt : K) (hdt : dt ≠ 0) (hm : MonotoneTimes dt times) :
    (do let b ← timesIteratorBegin q x times dt
        let i ← (timesIterator (TimeArith.exact K 0) st).forEach obs b
        return i.x) =
    (do let r ← integrateTimesBasic (TimeArith.exact K 0) st obs q x times dt
        return r.1 : M W S) := by
  funext w
  cases times with
  | nil => rfl
  | cons t l =>
    simp only [timesIteratorBegin, pure_bind, integrateTimesBasic]
    exact timesLoop_eq st obs dt hdt l t _ _ w hm rfl rfl rfl rfl rfl rfl (SameDir.refl hdt)

/-- The hypotheses are met by an ordinary sequence of times; the sequence of pairs is the sequence of
observer calls. -/
example : MonotoneTimes (1 : ℚ) [0, 3/2, 3/2, 5] := by
  unfold MonotoneTimes; norm_num

/-! ### Controlled steppers: the two programs differ -/

/-- A controlled stepper that accepts step sizes up to `1/2`, otherwise asks for `2/5` of the step size; its
state sums up the squares of the accepted step sizes. -/
def squareSum (_ : Unit) (x t dt : ℚ) : Except Err (TryResult Unit ℚ ℚ) :=
  if 1 / 2 < dt then .ok ⟨(), x, t, 2 / 5 * dt, false⟩ else .ok ⟨(), x + dt * dt, t + dt, dt, true⟩

theorem squareSum_fail {u : Unit} {x t dt : ℚ} (h : 1 / 2 < dt) (w : Log ℚ ℚ) :
    (loggedControlled squareSum).tryStep u x t dt w =
      .ok ⟨(), x, t, 2 / 5 * dt, false⟩ (w ++ [.tried x t dt false]) := by
  simp only [loggedControlled, squareSum, if_pos h]

theorem squareSum_ok {u : Unit} {x t dt : ℚ} (h : ¬ 1 / 2 < dt) (w : Log ℚ ℚ) :
    (loggedControlled squareSum).tryStep u x t dt w =
      .ok ⟨(), x + dt * dt, t + dt, dt, true⟩ (w ++ [.tried x t dt true]) := by
  simp only [loggedControlled, squareSum, if_neg h]

theorem squareSum_loop_ok {x t d : ℚ} {n : ℕ} {b e : Bool} (h : ¬ 1 / 2 < d) (w : Log ℚ ℚ) :
    iterTryLoop (loggedControlled squareSum) ⟨(), x, t, d, n, b, e⟩ w =
      .ok ⟨(), x + d * d, t + d, d, 1, true, e⟩ (w ++ [.tried x t d true]) := by
  unfold iterTryLoop iterTry
  simp only [bind_assoc, pure_bind]
  rw [M.bind_ok (squareSum_ok h w)]
  rw [whileM_false (by simp)]
  simp [M.pure_apply]

theorem squareSum_loop_fail {x t d : ℚ} {n : ℕ} {b e : Bool} (h : 1 / 2 < d) (h' : ¬ 1 / 2 < 2 / 5 * d)
    (w : Log ℚ ℚ) :
    iterTryLoop (loggedControlled squareSum) ⟨(), x, t, d, n, b, e⟩ w =
      .ok ⟨(), x + 2 / 5 * d * (2 / 5 * d), t + 2 / 5 * d, 2 / 5 * d, 2, true, e⟩
        (w ++ [.tried x t d false] ++ [.tried x t (2 / 5 * d) true]) := by
  unfold iterTryLoop iterTry
  simp only [bind_assoc, pure_bind]
  rw [M.bind_ok (squareSum_fail h w)]
  rw [whileM_true (by simp)]
  simp only [bind_assoc, pure_bind]
  rw [M.bind_ok (squareSum_ok h' _)]
  rw [whileM_false (by simp)]
  simp [M.pure_apply]

/-- C15 (violation): for controlled steppers `make_times_time_range` does *not* always yield the states
`integrate_times` observes.  After a rejected trial `integrate_times` keeps the reduced step size, the
iterator forgets it.  Here both start at `0` with step size `2`, and differ at the requested time `1`. -/
theorem times_range_controlled_differs :
    (∃ r w', integrateTimesControlled (TimeArith.exact ℚ 0) (loggedControlled squareSum) record () 0 [0, 1] 2 []
      = .ok r w' ∧ w'.observations = [(0, 0), (9 / 25, 1)]) ∧
    (∃ i w', ((timesIteratorBegin () 0 [0, 1] 2) >>=
      (timesControlledIterator (TimeArith.exact ℚ 0) (loggedControlled squareSum)).forEach record) []
      = .ok i w' ∧ w'.observations = [(0, 0), (217 / 625, 1)]) := by
  constructor
  · apply exists_eval
    · unfold integrateTimesControlled
      apply bind_eval rfl
      apply bind_eval
      · unfold timesControlledInner
        apply whileM_step_eval (s' := ⟨(), 0, 0, 2 / 5, 0, 1⟩) (by cond_eval)
        · apply bind_eval (squareSum_fail (by cond_eval) _)
          norm_num [M.pure_apply, TimeArith.exact, TimeArith.minAbs, TimeArith.stdMin, failedStepChecker,
            defaultMaxSteps]
          rfl
        apply whileM_step_eval (s' := ⟨(), 4 / 25, 2 / 5, 2 / 5, 1, 0⟩) (by cond_eval)
        · apply bind_eval (squareSum_ok (by cond_eval) _)
          norm_num [M.pure_apply, TimeArith.exact, TimeArith.minAbs, TimeArith.maxAbs, TimeArith.stdMin,
            TimeArith.stdMax]
          rfl
        apply whileM_step_eval (s' := ⟨(), 8 / 25, 4 / 5, 2 / 5, 2, 0⟩) (by cond_eval)
        · apply bind_eval (squareSum_ok (by cond_eval) _)
          norm_num [M.pure_apply, TimeArith.exact, TimeArith.minAbs, TimeArith.maxAbs, TimeArith.stdMin,
            TimeArith.stdMax]
          rfl
        apply whileM_step_eval (s' := ⟨(), 9 / 25, 1, 2 / 5, 3, 0⟩) (by cond_eval)
        · apply bind_eval (squareSum_ok (by cond_eval) _)
          norm_num [M.pure_apply, TimeArith.exact, TimeArith.minAbs, TimeArith.maxAbs, TimeArith.stdMin,
            TimeArith.stdMax]
          rfl
        apply whileM_stop
        cond_eval
      · rfl
    · norm_num [Log.observations, TimeArith.exact, List.filterMap_cons, TimeArith.minAbs, TimeArith.maxAbs,
        TimeArith.stdMin, TimeArith.stdMax]
  · apply exists_eval
    · unfold timesIteratorBegin OdeIterator.forEach timesControlledIterator
      simp only [pure_bind]
      apply whileM_step_eval (by simp)
      · simp only
        apply bind_eval rfl
        apply bind_eval
        · apply whileM_step_eval (s' := ⟨(), 4 / 25, 2 / 5, 2, [0, 1], false⟩) (by cond_eval)
          · apply ite_pos_eval (by cond_eval)
            apply bind_eval (squareSum_loop_fail (by cond_eval) (by cond_eval) _)
            norm_num [M.pure_apply, TimeArith.exact]
            rfl
          apply whileM_step_eval (s' := ⟨(), 136 / 625, 16 / 25, 2, [0, 1], false⟩) (by cond_eval)
          · apply ite_pos_eval (by cond_eval)
            apply bind_eval (squareSum_loop_fail (by cond_eval) (by cond_eval) _)
            norm_num [M.pure_apply, TimeArith.exact]
            rfl
          apply whileM_step_eval (s' := ⟨(), 217 / 625, 1, 2, [0, 1], false⟩) (by cond_eval)
          · apply ite_pos_eval (by cond_eval)
            apply bind_eval (squareSum_loop_ok (by cond_eval) _)
            norm_num [M.pure_apply, TimeArith.exact]
            rfl
          apply whileM_stop
          cond_eval
        · rfl
      apply whileM_step_eval (by simp)
      · rfl
      apply whileM_stop
      rfl
    · norm_num [Log.observations, TimeArith.exact, List.filterMap_cons, TimeArith.minAbs, TimeArith.maxAbs,
        TimeArith.stdMin, TimeArith.stdMax]

end Verif
