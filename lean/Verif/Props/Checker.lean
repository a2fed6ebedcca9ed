import Verif.Lemmas.Checker
import Mathlib.Algebra.Order.Field.Rat
import Mathlib.Tactic.NormNum

/-!
# C06: `max_step_checker` bounds the work between observations

The checked stepper and observer are those of `integrate/check_adapter.hpp`; the runs start with a fresh
checker (counter 0).  `CheckedSpec` compares the checked run with the unchecked run.  No law about the
time arithmetic is used.
-/

namespace Verif
open SimCtx
variable {Q S T : Type}

/-- **C06** (plain steppers): `integrate_n_steps`, `integrate_const` and `integrate_times`. -/
theorem checked_basic (A : TimeArith T) (m : ℕ) (step : Q → S → T → T → Except Err (Q × S))
    (q : Q) (x : S) (t0 t1 dt : T) (n : ℕ) (l : List T) :
    let st := loggedBasic step
    let obs := checkedObserver' (record (S := S) (T := T))
    CheckedSpec m Prod.fst (fun p l => l = p)
      (integrateNStepsBasic A (checkedBasic m st) obs q x t0 dt n ([], 0))
      (integrateNStepsBasic A st record q x t0 dt n []) ∧
    CheckedSpec m Prod.fst (fun p l => l = p)
      (integrateConstBasic A (checkedBasic m st) obs q x t0 t1 dt ([], 0))
      (integrateConstBasic A st record q x t0 t1 dt []) ∧
    CheckedSpec m Prod.fst (fun p l => l = p)
      (integrateTimesBasic A (checkedBasic m st) obs q x l dt ([], 0))
      (integrateTimesBasic A st record q x l dt []) := by
  intro st obs
  have hA := eqTimeRel A
  have hst := checked_basic_sim m step
  have ho := checked_obs_sim (Q := Q) (S := S) (T := T) m afterStep
  have hJ : checkJ m q q (([] : Log S T), 0) [] := ⟨rfl, rfl, rfl, within_nil m⟩
  have hl : List.Forall₂ Eq l l := List.forall₂_same.mpr fun _ _ => rfl
  refine ⟨checkedSpec_of_rel ?_ (integrateNStepsBasic_sim hA hst ho n hJ rfl rfl rfl),
    checkedSpec_of_rel ?_ (integrateConstBasic_sim hA hst ho (fun _ _ => False)
      (fun _ _ _ _ _ _ h _ => h.elim) hJ rfl rfl rfl rfl),
    checkedSpec_of_rel ?_ (integrateTimesBasic_sim hA hst ho hl hJ rfl rfl)⟩
  · rintro ⟨_, _⟩ ⟨_, _⟩ p p' ⟨⟨_, _, _, h, _, h'⟩, h1, h2⟩; exact ⟨Prod.ext h1 h2, h, h'⟩
  · rintro ⟨_, _⟩ ⟨_, _⟩ p p' ⟨⟨_, _, _, h, _, h'⟩, -, h1, h2⟩; exact ⟨Prod.ext h1 h2, h, h'⟩
  · rintro ⟨_, _⟩ ⟨_, _⟩ p p' ⟨⟨_, _, _, h, _, h'⟩, h1, h2⟩; exact ⟨Prod.ext h1 h2, h, h'⟩

/-- **C06** (dense output steppers): the checker throws *before* the `m+1`-st step. -/
theorem checked_dense (A : TimeArith T) (m : ℕ) (p : PureDense Q S T)
    (q : Q) (x : S) (t0 t1 dt : T) (n : ℕ) (l : List T) :
    let st := loggedDense p
    let obs := checkedObserver' (record (S := S) (T := T))
    let Next : Log S T → Log S T → Prop := fun p l => ∃ x t dt, l = p ++ [.step x t dt]
    CheckedSpec m Prod.fst Next
      (integrateNStepsDense A (checkedDense m st) obs q x t0 dt n ([], 0))
      (integrateNStepsDense A st record q x t0 dt n []) ∧
    CheckedSpec m Prod.fst Next
      (integrateConstDense A (checkedDense m st) obs q x t0 t1 dt ([], 0))
      (integrateConstDense A st record q x t0 t1 dt []) ∧
    CheckedSpec m Prod.fst Next
      (integrateTimesDense A (checkedDense m st) obs q x l dt ([], 0))
      (integrateTimesDense A st record q x l dt []) := by
  intro st obs Next
  have hA := eqTimeRel A
  have hst := checked_dense_sim m p
  have ho := checked_obs_sim (Q := Q) (S := S) (T := T) m beforeStep
  have hJ : checkJ m q q (([] : Log S T), 0) [] := ⟨rfl, rfl, rfl, within_nil m⟩
  refine ⟨checkedSpec_of_rel ?_ (integrateNStepsDense_sim hA (by rintro _ _ _ _ rfl rfl; rfl)
      (by rintro _ _ _ _ rfl rfl; rfl) hst ho n (hst.init hJ rfl rfl rfl) rfl rfl rfl),
    checkedSpec_of_rel ?_ (integrateConstDense_sim hA hst ho (hst.init hJ rfl rfl rfl) rfl rfl rfl
      rfl), ?_⟩
  · rintro ⟨_, _⟩ ⟨_, _⟩ p p' ⟨⟨_, _, _, h, _, h'⟩, h1, h2⟩; exact ⟨Prod.ext h1 h2, h, h'⟩
  · rintro ⟨_, _⟩ ⟨_, _⟩ p p' ⟨⟨_, _, _, h, _, h'⟩, h1, h2⟩; exact ⟨Prod.ext h1 h2, h, h'⟩
  · cases l with
    | nil =>
      simp only [integrateTimesDense, M.pure_apply]
      exact checkedSpec_of_rel (R := fun a a' v l => a = a' ∧ v.1 = l ∧ l.Within m)
        (fun _ _ _ _ h => h) (.ok ⟨rfl, rfl, within_nil m⟩)
    | cons t l =>
      refine checkedSpec_of_rel ?_ (integrateTimesDense_sim (A := A) (A' := A)
        (JR := checkJ (Q := Q) m) (RS := Eq) (RT := Eq) ?_ ?_ (fun _ _ _ _ h => hst.step h)
        (fun _ _ _ _ _ _ h h' => hst.calc_state h h') ?_ ho hst.mono_init hst.mono_step
        hst.mono_calc rfl rfl (List.forall₂_same.mpr fun _ _ => rfl) (hst.init hJ rfl rfl rfl))
      · rintro ⟨_, _⟩ ⟨_, _⟩ p p' ⟨⟨_, _, _, h, _, h'⟩, h1, h2⟩; exact ⟨Prod.ext h1 h2, h, h'⟩
      · rintro q _ p p' τ _ ⟨rfl, _⟩ rfl _; rfl
      · rintro q _ p p' ⟨rfl, _⟩; rfl
      · rintro q _ p p' τ l ⟨rfl, h⟩ _ _; exact hst.init ⟨rfl, h⟩ rfl rfl rfl

/-- **C06** (controlled steppers, `integrate_times`), for arbitrary controlled steppers. -/
theorem checked_controlled_times (A : TimeArith T) (m : ℕ)
    (f : Q → S → T → T → Except Err (TryResult Q S T)) (q : Q) (x : S) (dt : T) (l : List T) :
    CheckedSpec m (fun p => p.1.1) (fun p l => l = p)
      (integrateTimesControlled A (checkedControlled m (loggedControlled f)) (checkedObserver record)
        () x l dt ((([] : Log S T), q), 0))
      (integrateTimesControlled A (loggedControlled f) record q x l dt []) := by
  have hA := eqTimeRel A
  have hst := checked_ctrl_sim m Eq f (by
    rintro q _ x t dt rfl
    cases h : f q x t dt with
    | error e => exact .inl ⟨e, rfl, rfl⟩
    | ok r => exact .inr ⟨r, r, rfl, rfl, rfl, rfl, rfl, rfl, rfl⟩)
  have ho := checked_obs_sim' (Q := Q) (S := S) (T := T) m Eq afterStep
  have hJ : checkJC m Eq () q ((([] : Log S T), q), 0) [] := ⟨rfl, rfl, rfl, within_nil m⟩
  have hl : List.Forall₂ Eq l l := List.forall₂_same.mpr fun _ _ => rfl
  refine checkedSpec_of_rel ?_ (integrateTimesControlled_sim hA (fun _ _ _ _ h => h.2.1) hst ho hl hJ
    rfl rfl)
  rintro ⟨_, _⟩ ⟨_, _⟩ p p' ⟨⟨_, _, _, h, _, h'⟩, h1, h2⟩; exact ⟨Prod.ext h1 h2, h, h'⟩

/-- **C06** (controlled steppers, `integrate_n_steps` and `integrate_const`).  The unchecked versions
hand a fresh copy of the stepper to every interval, the checked versions keep using one stepper; they can
only agree for steppers whose internal state does not influence the results. -/
theorem checked_controlled (A : TimeArith T) (m : ℕ)
    (f : Q → S → T → T → Except Err (TryResult Q S T)) (hf : Stateless f) (q : Q) (x : S)
    (t0 t1 dt : T) (n : ℕ) :
    let st := loggedControlled f
    let obs := checkedObserver (V := Q) (record (S := S) (T := T))
    CheckedSpec m (fun p => p.1.1) (fun p l => l = p)
      (integrateNStepsControlled A (checkedControlled m st) obs () x t0 dt n (([], q), 0))
      (integrateNStepsControlled A st record q x t0 dt n []) ∧
    CheckedSpec m (fun p => p.1.1) (fun p l => l = p)
      (integrateConstControlled A (checkedControlled m st) obs () x t0 t1 dt (([], q), 0))
      (integrateConstControlled A st record q x t0 t1 dt []) := by
  intro st obs
  have hA := eqTimeRel A
  have hst := checked_ctrl_sim m (fun _ _ => True) f (by
    rintro q q' x t dt _
    have := hf q q' x t dt
    cases h : f q x t dt <;> cases h' : f q' x t dt <;> rw [h, h'] at this <;>
      simp only [Except.map, Except.ok.injEq, Except.error.injEq, Prod.mk.injEq, reduceCtorEq] at this
    · exact .inl ⟨_, rfl, by rw [this]⟩
    · exact .inr ⟨_, _, rfl, rfl, trivial, this⟩)
  have ho := checked_obs_sim' (Q := Q) (S := S) (T := T) m (fun _ _ => True) afterStep
  have hJ : checkJC m (fun _ _ => True) () q ((([] : Log S T), q), 0) [] :=
    ⟨trivial, rfl, rfl, within_nil m⟩
  have hE : ∀ (u : Unit) (q : Q) (p : (Log S T × Q) × ℕ) l, checkJC m (fun _ _ => True) u q p l →
      (checkCtx m (ctrlLog (Q := Q)) afterStep).RE p l := fun _ _ _ _ h => h.2.1
  refine ⟨checkedSpec_of_rel ?_ (integrateNStepsControlled_sim hA hE hst ho n
      (fun _ _ _ _ h => h) hJ rfl rfl rfl),
    checkedSpec_of_rel ?_ (integrateConstControlled_sim hA hE hst ho (fun _ _ _ _ h => h) hJ rfl rfl
      rfl rfl)⟩
  · rintro ⟨_, _⟩ ⟨_, _⟩ p p' ⟨⟨_, _, _, h, _, h'⟩, h1, h2⟩; exact ⟨Prod.ext h1 h2, h, h'⟩
  · rintro ⟨_, _⟩ ⟨_, _⟩ p p' ⟨⟨_, _, _, h, _, h'⟩, h1, h2⟩; exact ⟨Prod.ext h1 h2, h, h'⟩

/-- Non-vacuity: with limit 1, two steps between the requested times 0 and 2 overflow; limit 2 does
not. -/
example : let st := loggedBasic (fun (q : Unit) (x _ dt : ℚ) => .ok (q, x + dt))
    let r : Log ℚ ℚ := [Event.obs (0 : ℚ) (0 : ℚ), .step 0 0 1, .step 1 1 1]
    integrateNStepsBasic (TimeArith.exact ℚ 0) (checkedBasic 0 st) (checkedObserver' record) () 0 0 1 2
      ([], 0) = .err .noProgress ([.obs 0 0, .step 0 0 1], 1) ∧
    r.sinceObs = 2 ∧ ¬ Log.Within 1 r ∧ Log.Within 2 r := by
  intro st r
  have h2 : r.sinceObs = 2 := by rfl
  refine ⟨?_, h2, fun h => by have := h r List.prefix_rfl; omega, ?_⟩
  · norm_num [st, integrateNStepsBasic, nStepsBasicLoop, loggedBasic, record, M.modify, M.onFst,
      checkedBasic, checkedObserver', callChecker,
      M.bind_apply, M.pure_apply, M.map_apply, TimeArith.exact]
  · exact (within_snoc 2 [_, _] _).mpr ⟨(within_snoc 2 [_] _).mpr
      ⟨(within_snoc 2 [] _).mpr ⟨within_nil 2, by decide⟩, by decide⟩, by decide⟩

/-- Non-vacuity: a controlled stepper whose internal state (a counter of calls) does not influence its
results. -/
example : Stateless fun (q : ℕ) (x t dt : ℚ) =>
    if |dt| ≤ 1 then .ok ⟨q + 1, x + dt, t + dt, 2 * dt, true⟩ else .ok ⟨q + 1, x, t, dt / 2, false⟩ := by
  intro q q' x t dt
  simp only
  split <;> rfl

end Verif
