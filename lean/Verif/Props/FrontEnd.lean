import Verif.Model.FrontEnd
import Verif.Spec.Observers
import Verif.Lemmas.RunEval
import Mathlib.Algebra.Order.Field.Rat
import Mathlib.Tactic.NormNum
import Mathlib.Tactic.Linarith

/-!
# C67: `integrate_const` with a step checker, with and without an observer

A user who adds an observer to a call of `integrate_const` (or drops it) expects the same end state and number of steps, and a user who passes a step
checker expects the call to end.  Without a checker the former is C16.  With a checker and no observer the library calls `integrate_adaptive` and
drops the checker.
-/

namespace Verif
variable {Q W V S T : Type}

theorem onFst_onFst_rel {α : Type} (m : M W α) (w : W) (v : V) (c : ℕ) :
    Res.Rel (fun a a' (p : (W × V) × ℕ) w' => a = a' ∧ p.1.1 = w' ∧ p.2 = c) (fun p w' => p.1.1 = w') ((m.onFst (V := V)).onFst ((w, v), c)) (m w) := by
  unfold M.onFst
  simp only
  cases m w <;> simp [Res.Rel]

theorem checkedStep_rel (st : BasicStepper Q W S T) (o : S → T → V → V) {max : ℕ} (hmax : 1 ≤ max) (q : Q) (x x' : S) (t' t dt : T) (p : (W × V) × ℕ) :
    Res.Rel (fun a a' (p : (W × V) × ℕ) w' => a = a' ∧ p.1.1 = w') (fun p w' => p.1.1 = w')
      ((checkedObserver' (pureObserver (W := W) o) x' t' >>= fun _ => (checkedBasic max (st.lift V)).doStep q x t dt) p) (st.doStep q x t dt p.1.1) := by
  obtain ⟨⟨w, v⟩, c⟩ := p
  have h1 : checkedObserver' (pureObserver (W := W) o) x' t' ((w, v), c) = .ok () ((w, o x' t' v), 0) := rfl
  rw [M.bind_ok h1]
  have h2 := onFst_onFst_rel (st.doStep q x t dt) w (o x' t' v) 0
  unfold checkedBasic BasicStepper.lift
  simp only
  cases hm : st.doStep q x t dt w with
  | ok a w1 =>
    have : ((st.doStep q x t dt).onFst (V := V)).onFst ((w, o x' t' v), 0) = .ok a ((w1, o x' t' v), 0) := by simp [M.onFst, hm]
    rw [M.bind_ok this]
    have h3 : callChecker max ((w1, o x' t' v), 0) = .ok () ((w1, o x' t' v), 1) := by
      unfold callChecker
      rw [if_neg (by simp only; omega)]
    rw [M.bind_ok h3]
    exact ⟨rfl, rfl⟩
  | err e w1 =>
    have : ((st.doStep q x t dt).onFst (V := V)).onFst ((w, o x' t' v), 0) = .err e ((w1, o x' t' v), 0) := by simp [M.onFst, hm]
    rw [M.bind_err this]
    exact ⟨rfl, rfl⟩
  | ub =>
    have : ((st.doStep q x t dt).onFst (V := V)).onFst ((w, o x' t' v), 0) = .ub := by simp [M.onFst, hm]
    rw [M.bind_ub this]
    trivial
  | div =>
    have : ((st.doStep q x t dt).onFst (V := V)).onFst ((w, o x' t' v), 0) = .div := by simp [M.onFst, hm]
    rw [M.bind_div this]
    trivial

/-- the observed, checked run and the unobserved one correspond -/
theorem checkedConst_rel (A : TimeArith T) (st : BasicStepper Q W S T) (o : S → T → V → V) {max : ℕ} (hmax : 1 ≤ max) (q : Q) (x : S) (t0 t1 dt : T)
    (p : (W × V) × ℕ) :
    Res.Rel (fun a a' (p : (W × V) × ℕ) w' => a = a' ∧ p.1.1 = w') (fun p w' => p.1.1 = w')
      (integrateConstBasic A (checkedBasic max (st.lift V)) (checkedObserver' (pureObserver (W := W) o)) q x t0 t1 dt p)
      (integrateConstBasic A st nullObserver q x t0 t1 dt p.1.1) := by
  unfold integrateConstBasic
  refine Res.Rel.bind (R := fun a a' (p : (W × V) × ℕ) w' => a = a' ∧ p.1.1 = w') ?_ ?_
  · refine whileM_rel (fun a a' (p : (W × V) × ℕ) w' => a = a' ∧ p.1.1 = w') _ ?_ ?_ ⟨rfl, rfl⟩
    · rintro s _ p w ⟨rfl, -⟩; rfl
    · rintro s _ p w ⟨rfl, rfl⟩ -
      have h := checkedStep_rel st o hmax s.q s.x s.x s.time s.time dt p
      have e' : (do
          checkedObserver' (pureObserver (W := W) o) s.x s.time
          let (q, x) ← (checkedBasic max (st.lift V)).doStep s.q s.x s.time dt
          return (⟨q, x, A.add t0 (A.nmul (s.step + 1) dt), s.step + 1⟩ : ConstState Q S T)) p =
          ((checkedObserver' (pureObserver (W := W) o) s.x s.time >>= fun _ => (checkedBasic max (st.lift V)).doStep s.q s.x s.time dt) >>=
            fun r => pure (⟨r.1, r.2, A.add t0 (A.nmul (s.step + 1) dt), s.step + 1⟩ : ConstState Q S T)) p := by
        rw [M.bind_apply, M.bind_apply, M.bind_apply]
        cases checkedObserver' (pureObserver (W := W) o) s.x s.time p <;> rfl
      rw [e']
      show Res.Rel _ _ _ ((st.doStep s.q s.x s.time dt >>= fun r =>
        pure (⟨r.1, r.2, A.add t0 (A.nmul (s.step + 1) dt), s.step + 1⟩ : ConstState Q S T)) p.1.1)
      refine Res.Rel.bind h ?_
      rintro a _ p w ⟨rfl, rfl⟩
      exact ⟨rfl, rfl⟩
  · rintro s _ ⟨⟨w, v⟩, c⟩ _ ⟨rfl, rfl⟩
    exact ⟨rfl, rfl⟩

/-- **C67** (proved part: plain steppers, when the last step ends at the end time).  Missing: the other cases, in which the property is false, see
below. -/
theorem const_checker_observer_partial (A : TimeArith T) {max : ℕ} (hmax : 1 ≤ max) (st : BasicStepper Q W S T) (o : S → T → V → V) (q : Q) (x : S)
    (t0 t1 dt : T) (w : W) (v : V)
    (hend : ∀ y n p, integrateConstCheckedBasic A max (st.lift V) (some (pureObserver o)) q x t0 t1 dt (w, v) = .ok (y, n) p →
      A.lessWithSign (A.add t0 (A.nmul n dt)) t1 dt = false) :
    (integrateConstCheckedBasic A max (st.lift V) (some (pureObserver o)) q x t0 t1 dt (w, v)).view Prod.fst =
      integrateConstCheckedBasic A max st none q x t0 t1 dt w := by
  have h := checkedConst_rel A st o hmax q x t0 t1 dt ((w, v), 0)
  unfold integrateConstCheckedBasic withNewChecker integrateAdaptiveBasic at *
  simp only at hend h ⊢
  cases h1 : integrateConstBasic A (checkedBasic max (st.lift V)) (checkedObserver' (pureObserver (W := W) o)) q x t0 t1 dt ((w, v), 0) with
  | ok a p =>
    rw [h1] at h
    cases h2 : integrateConstBasic A st nullObserver q x t0 t1 dt w with
    | ok a' w' =>
      rw [h2] at h
      obtain ⟨rfl, rfl⟩ := h
      obtain ⟨y, n⟩ := a
      rw [M.bind_ok h2]
      have := hend y n p.1 (by rw [h1])
      simp only [this, Bool.false_eq_true, if_false]
      rfl
    | _ => rw [h2] at h; exact h.elim
  | err e p =>
    rw [h1] at h
    cases h2 : integrateConstBasic A st nullObserver q x t0 t1 dt w with
    | err e' w' =>
      rw [h2] at h
      obtain ⟨rfl, rfl⟩ := h
      rw [M.bind_err h2]
      rfl
    | _ => rw [h2] at h; exact h.elim
  | ub =>
    rw [h1] at h
    cases h2 : integrateConstBasic A st nullObserver q x t0 t1 dt w with
    | ub => rw [M.bind_ub h2]; rfl
    | _ => rw [h2] at h; exact h.elim
  | div =>
    rw [h1] at h
    cases h2 : integrateConstBasic A st nullObserver q x t0 t1 dt w with
    | div => rw [M.bind_div h2]; rfl
    | _ => rw [h2] at h; exact h.elim

/-! ## The property is false -/

/-- a plain stepper for `x' = 1` -/
def clockStepper : BasicStepper Unit Unit ℚ ℚ where
  doStep q x _ dt := pure (q, x + dt)

/-- **C67** is violated (end state): with an observer, `integrate_const( stepper , sys , x = 0 , 0 , 3/2 , 1 , observer , checker )` ends at time `1`
after one step; without observer it ends at time `3/2` after two steps. -/
theorem const_checker_observer_end_violated :
    ∃ (max : ℕ) (o : ℚ → ℚ → Unit → Unit), 1 ≤ max ∧
      integrateConstCheckedBasic (TimeArith.exact ℚ 0) max (clockStepper.lift Unit) (some (pureObserver o)) () 0 0 (3 / 2) 1 ((), ()) =
        .ok (1, 1) ((), ()) ∧
      integrateConstCheckedBasic (TimeArith.exact ℚ 0) max clockStepper none () 0 0 (3 / 2) 1 () = .ok (3 / 2, 2) () := by
  refine ⟨500, fun _ _ u => u, by norm_num, ?_, ?_⟩
  · have : integrateConstBasic (TimeArith.exact ℚ 0) (checkedBasic 500 (clockStepper.lift Unit)) (checkedObserver' (pureObserver fun _ _ u => u))
        () 0 0 (3 / 2) 1 (((), ()), 0) = .ok (1, 1) (((), ()), 0) := by
      unfold integrateConstBasic
      apply bind_eval (w' := (((), ()), 1)) (a := (⟨(), 1, 1, 1⟩ : ConstState Unit ℚ ℚ))
      · apply whileM_step_eval (s' := ⟨(), 1, 1, 1⟩) (w' := (((), ()), 1))
        · cond_eval
        · simp [checkedBasic, checkedObserver', pureObserver, M.onFst, clockStepper, BasicStepper.lift, callChecker, M.pure_apply,
            M.modify, TimeArith.exact, bind, M.bind]
        · apply whileM_stop
          cond_eval
      · rfl
    unfold integrateConstCheckedBasic withNewChecker
    simp only
    rw [this]
  · have : integrateConstBasic (TimeArith.exact ℚ 0) clockStepper nullObserver () 0 0 (3 / 2) 1 () = .ok (1, 1) () := by
      unfold integrateConstBasic
      apply bind_eval (w' := ()) (a := (⟨(), 1, 1, 1⟩ : ConstState Unit ℚ ℚ))
      · apply whileM_step_eval (s' := ⟨(), 1, 1, 1⟩) (w' := ())
        · cond_eval
        · simp [nullObserver, clockStepper, TimeArith.exact, bind, M.bind, pure]
        · apply whileM_stop
          cond_eval
      · rfl
    unfold integrateConstCheckedBasic integrateAdaptiveBasic
    simp only
    rw [M.bind_ok this]
    have h : (TimeArith.exact ℚ 0).lessWithSign ((TimeArith.exact ℚ 0).add 0 ((TimeArith.exact ℚ 0).nmul 1 1)) (3 / 2) 1 = true := by cond_eval
    simp only [h, if_true]
    norm_num [clockStepper, nullObserver, TimeArith.exact, bind, M.bind, pure]

/-- The theorem applies when the end time is reached exactly, here with two steps of size `1`: the checked and the unobserved run give the same. -/
example : (integrateConstCheckedBasic (TimeArith.exact ℚ 0) 500 (clockStepper.lift ℕ) (some (pureObserver fun _ _ n => n + 1)) () 5 0 2 1 ((), 0)).view
    Prod.fst = integrateConstCheckedBasic (TimeArith.exact ℚ 0) 500 clockStepper none () 5 0 2 1 () := by
  have : integrateConstBasic (TimeArith.exact ℚ 0) (checkedBasic 500 (clockStepper.lift ℕ)) (checkedObserver' (pureObserver fun _ _ n => n + 1))
      () 5 0 2 1 (((), 0), 0) = .ok (7, 2) (((), 3), 0) := by
    unfold integrateConstBasic
    apply bind_eval (w' := (((), 2), 1)) (a := (⟨(), 7, 2, 2⟩ : ConstState Unit ℚ ℚ))
    · apply whileM_step_eval (s' := ⟨(), 6, 1, 1⟩) (w' := (((), 1), 1))
      · cond_eval
      · norm_num [checkedBasic, checkedObserver', pureObserver, M.onFst, clockStepper, BasicStepper.lift, callChecker, M.pure_apply,
          M.modify, TimeArith.exact, bind, M.bind]
      apply whileM_step_eval (s' := ⟨(), 7, 2, 2⟩) (w' := (((), 2), 1))
      · cond_eval
      · norm_num [checkedBasic, checkedObserver', pureObserver, M.onFst, clockStepper, BasicStepper.lift, callChecker, M.pure_apply,
          M.modify, TimeArith.exact, bind, M.bind]
      · apply whileM_stop
        cond_eval
    · rfl
  refine const_checker_observer_partial _ (by norm_num) _ _ _ _ _ _ _ _ _ fun y n p h => ?_
  unfold integrateConstCheckedBasic withNewChecker at h
  simp only at h
  rw [this] at h
  injection h with h1 _
  injection h1 with _ h2
  subst h2
  cond_eval

/-- a controlled stepper that accepts every step and halves the step size -/
def halvingStepper : ControlledStepper Unit Unit ℚ ℚ where
  tryStep q x t dt := pure ⟨q, x, t + dt, dt / 2, true⟩

/-- a step of the checked stepper that does not end the interval and is not one too many -/
theorem halving_body {x t t1 dt t' dt' : ℚ} {c n : ℕ} (h0 : 0 < dt) (ht : t' = t + dt) (hdt : dt' = dt / 2) (h : t + dt ≤ t1 ∧ c < 2) :
    (do
      nullObserver x t
      let s ← retryLoop (checkedControlled 2 (halvingStepper.lift Unit))
        { (⟨(), x, t, dt, 0, true⟩ : AdaptState Unit ℚ ℚ) with dt := clipDt (TimeArith.exact ℚ 0) t t1 dt }
      return ({ s with fails := 0 }, n + 1) : M (((Unit × Unit) × Unit) × ℕ) (AdaptState Unit ℚ ℚ × ℕ)) ((((), ()), ()), c) =
    .ok (⟨(), x, t', dt', 0, true⟩, n + 1) ((((), ()), ()), c + 1) := by
  subst ht hdt
  have hclip : clipDt (TimeArith.exact ℚ 0) t t1 dt = dt := by
    unfold clipDt
    rw [if_neg]
    simp [TimeArith.lessWithSign, TimeArith.exact, h0]
    linarith [h.1]
  rw [hclip]
  apply bind_eval (a := ()) (w' := ((((), ()), ()), c))
  · rfl
  apply bind_eval (a := (⟨(), x, t + dt, dt / 2, 1, true⟩ : AdaptState Unit ℚ ℚ)) (w' := ((((), ()), ()), c + 1))
  · unfold retryLoop
    apply bind_eval (a := (⟨(), x, t + dt, dt / 2, 1, true⟩ : AdaptState Unit ℚ ℚ)) (w' := ((((), ()), ()), c + 1))
    · unfold retryBody
      apply bind_eval (a := (⟨(), x, t + dt, dt / 2, true⟩ : TryResult Unit ℚ ℚ)) (w' := ((((), ()), ()), c + 1))
      · have : callChecker (W := (Unit × Unit) × Unit) 2 ((((), ()), ()), c) = .ok () ((((), ()), ()), c + 1) := by
          unfold callChecker
          rw [if_neg (by simp only; omega)]
        show (callChecker 2 >>= fun _ => pure _) _ = _
        rw [M.bind_ok this]
        rfl
      · rfl
    · exact whileM_stop rfl
  · rfl

/-- the third step -/
theorem halving_throw {x t t1 dt : ℚ} {n : ℕ} :
    (do
      nullObserver x t
      let s ← retryLoop (checkedControlled 2 (halvingStepper.lift Unit))
        { (⟨(), x, t, dt, 0, true⟩ : AdaptState Unit ℚ ℚ) with dt := clipDt (TimeArith.exact ℚ 0) t t1 dt }
      return ({ s with fails := 0 }, n + 1) : M (((Unit × Unit) × Unit) × ℕ) (AdaptState Unit ℚ ℚ × ℕ)) ((((), ()), ()), 2) =
    .err .noProgress ((((), ()), ()), 3) := by
  apply bind_eval (a := ()) (w' := ((((), ()), ()), 2))
  · rfl
  apply M.bind_err
  unfold retryLoop
  apply M.bind_err
  unfold retryBody
  apply M.bind_err
  rfl

/-- **C67** is violated (termination): `integrate_const( stepper , sys , x , 0 , 1 , 1/4 , observer , max_step_checker( 2 ) )` throws
`no_progress_error`; without observer the call does not return, although the same checker is passed. -/
theorem const_checker_observer_hang_violated :
    (∃ e w, integrateConstCheckedControlled (TimeArith.exact ℚ 0) 2 (halvingStepper.lift Unit) (some (pureObserver fun _ _ u => u))
        () 0 0 1 (1 / 4) ((), ()) = .err e w ∧ e = .noProgress) ∧
      ∀ max, integrateConstCheckedControlled (TimeArith.exact ℚ 0) max halvingStepper none () 0 0 1 (1 / 4) () = .div := by
  constructor
  · refine ⟨_, ((), ()), ?_, rfl⟩
    have : integrateConstControlled (TimeArith.exact ℚ 0) (checkedControlled 2 (halvingStepper.lift Unit))
        (checkedObserver (pureObserver fun _ _ u => u)) () 0 0 1 (1 / 4) ((((), ()), ()), 0) = .err .noProgress ((((), ()), ()), 3) := by
      unfold integrateConstControlled
      apply M.bind_err
      have h1 : integrateAdaptiveControlled (TimeArith.exact ℚ 0) (checkedControlled 2 (halvingStepper.lift Unit)) nullObserver () 0 0 (1 / 4) (1 / 4)
          ((((), ()), ()), 0) = .ok ⟨0, 1 / 4, 1 / 8, 1⟩ ((((), ()), ()), 1) := by
        unfold integrateAdaptiveControlled
        apply bind_eval (a := ((⟨(), 0, 1 / 4, 1 / 8, 0, true⟩ : AdaptState Unit ℚ ℚ), 1)) (w' := ((((), ()), ()), 1))
        · apply whileM_step_eval (s' := ((⟨(), 0, 1 / 4, 1 / 8, 0, true⟩ : AdaptState Unit ℚ ℚ), 1)) (w' := ((((), ()), ()), 1))
          · cond_eval
          · exact halving_body (by norm_num) (by norm_num) (by norm_num) (by norm_num)
          · apply whileM_stop
            cond_eval
        · rfl
      have h2 : integrateAdaptiveControlled (TimeArith.exact ℚ 0) (checkedControlled 2 (halvingStepper.lift Unit)) nullObserver () 0 (1 / 4) (1 / 2) (1 / 8)
          ((((), ()), ()), 0) = .err .noProgress ((((), ()), ()), 3) := by
        unfold integrateAdaptiveControlled
        apply M.bind_err
        apply whileM_step_eval (s' := ((⟨(), 0, 3 / 8, 1 / 16, 0, true⟩ : AdaptState Unit ℚ ℚ), 1)) (w' := ((((), ()), ()), 1))
        · cond_eval
        · exact halving_body (by norm_num) (by norm_num) (by norm_num) (by norm_num)
        apply whileM_step_eval (s' := ((⟨(), 0, 7 / 16, 1 / 32, 0, true⟩ : AdaptState Unit ℚ ℚ), 2)) (w' := ((((), ()), ()), 2))
        · cond_eval
        · exact halving_body (by norm_num) (by norm_num) (by norm_num) (by norm_num)
        apply whileM_step_err
        · cond_eval
        · exact halving_throw
      apply whileM_step_eval (s' := (⟨0, 1 / 4, 1 / 8, 1, 1⟩ : CtrlState ℚ ℚ)) (w' := ((((), ()), ()), 1))
      · cond_eval
      · apply bind_eval (a := ()) (w' := ((((), ()), ()), 0))
        · rfl
        have e : (TimeArith.exact ℚ 0).add 0 (1 / 4) = 1 / 4 := by norm_num [TimeArith.exact]
        simp only [e]
        apply bind_eval h1
        norm_num [TimeArith.exact, M.pure_apply]
      apply whileM_step_err
      · cond_eval
      · apply bind_eval (a := ()) (w' := ((((), ()), ()), 0))
        · rfl
        have e : (TimeArith.exact ℚ 0).add (1 / 4) (1 / 4) = 1 / 2 := by norm_num [TimeArith.exact]
        simp only [e]
        exact M.bind_err h2 _
    unfold integrateConstCheckedControlled withHeldStepper withNewChecker
    simp only
    rw [this]
  · intro max
    unfold integrateConstCheckedControlled integrateAdaptiveControlled
    simp only
    have key : whileM (fun p : AdaptState Unit ℚ ℚ × ℕ => (TimeArith.exact ℚ 0).lessWithSign p.1.t 1 p.1.dt)
        (fun p => do
          nullObserver p.1.x p.1.t
          let s ← retryLoop halvingStepper { p.1 with dt := clipDt (TimeArith.exact ℚ 0) p.1.t 1 p.1.dt }
          return ({ s with fails := 0 }, p.2 + 1))
        (⟨(), 0, 0, 1 / 4, 0, true⟩, 0) () = .div := by
      apply whileM_div fun p _ => 0 < p.1.dt ∧ p.1.t + 2 * p.1.dt = 1 / 2 ∧ p.1.fails = 0
      · rintro ⟨⟨q, x, t, dt, fails, success⟩, c⟩ _ ⟨h1, h2, rfl⟩
        simp only at h1 h2 ⊢
        have hless : (TimeArith.exact ℚ 0).lessWithSign t 1 dt = true := by
          simp [TimeArith.lessWithSign, TimeArith.exact, h1]
          linarith
        have hclip : clipDt (TimeArith.exact ℚ 0) t 1 dt = dt := by
          unfold clipDt
          rw [if_neg]
          simp [TimeArith.lessWithSign, TimeArith.exact, h1]
          linarith
        refine ⟨hless, (⟨(), x, t + dt, dt / 2, 0, true⟩, c + 1), (), ?_, by simp only; linarith, by simp only; linarith, rfl⟩
        rw [hclip]
        have hr : retryLoop halvingStepper ⟨q, x, t, dt, 0, success⟩ () = .ok ⟨(), x, t + dt, dt / 2, 1, true⟩ () := by
          unfold retryLoop
          apply bind_eval (a := (⟨(), x, t + dt, dt / 2, 1, true⟩ : AdaptState Unit ℚ ℚ)) (w' := ())
          · rfl
          · exact whileM_stop rfl
        apply bind_eval (a := ()) (w' := ())
        · rfl
        apply bind_eval hr
        rfl
      · norm_num
    exact M.bind_div (M.bind_div key _) _

end Verif
