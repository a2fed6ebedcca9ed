import Verif.Spec.Convergence

/-! # Conserved quantities in whole integrations -/

namespace Verif
variable {K V W Q α : Type}

/-- A call that started with the record `l` of observer calls keeps `P`: whether it returns or throws, every state given to the observer
satisfies `P`, and if it returns, so does the state it leaves. -/
def Throughout (P : V → Prop) (l : Log V K) (state : α → V) : Res (W × Log V K) α → Prop
  | .ok a w => P (state a) ∧ ∃ o, w.2 = l ++ o ∧ ∀ x ∈ o.observations, P x.1
  | .err _ w => ∃ o, w.2 = l ++ o ∧ ∀ x ∈ o.observations, P x.1
  | .ub => True
  | .div => True

/-- The integrate functions with a plain stepper keep `P`, when they are called with a stepper that satisfies `fresh` and a start state that
satisfies `P`: for every time arithmetic, all times and step sizes. -/
def BasicConserves (st : BasicStepper Q (W × Log V K) V K) (fresh : Q → Prop) (P : V → Prop) : Prop :=
  ∀ (A : TimeArith K) (q : Q) (x : V) (w : W) (l : Log V K), fresh q → P x →
    (∀ t dt n, Throughout P l Prod.fst (integrateNStepsBasic A st recordObserver q x t dt n (w, l))) ∧
    (∀ t t1 dt, Throughout P l Prod.fst (integrateConstBasic A st recordObserver q x t t1 dt (w, l))) ∧
    (∀ t t1 dt, Throughout P l Prod.fst (integrateAdaptiveBasic A st recordObserver q x t t1 dt (w, l))) ∧
    (∀ times dt, Throughout P l Prod.fst (integrateTimesBasic A st recordObserver q x times dt (w, l)))

/-- The same for controlled steppers. -/
def ControlledConserves (st : ControlledStepper Q (W × Log V K) V K) (fresh : Q → Prop) (P : V → Prop) : Prop :=
  ∀ (A : TimeArith K) (q : Q) (x : V) (w : W) (l : Log V K), fresh q → P x →
    (∀ t dt n, Throughout P l Prod.fst (integrateNStepsControlled A st recordObserver q x t dt n (w, l))) ∧
    (∀ t t1 dt, Throughout P l Prod.fst (integrateConstControlled A st recordObserver q x t t1 dt (w, l))) ∧
    (∀ t t1 dt, Throughout P l AdaptResult.x (integrateAdaptiveControlled A st recordObserver q x t t1 dt (w, l))) ∧
    (∀ times dt, Throughout P l Prod.fst (integrateTimesControlled A st recordObserver q x times dt (w, l)))

/-- The same for dense output steppers, for every time arithmetic.  `calc_state` has a meaning only after a step, and the integrate functions do not
always make one before they call it (C10, C34); the conditions exclude that: with `integrate_n_steps`, the start time is not before itself; with
`integrate_const`, the first grid point lies after the start time and the second is not beyond the end time; with `integrate_times`, the second time lies
after the first. -/
def DenseConserves (st : DenseStepper Q (W × Log V K) V K) (P : V → Prop) : Prop :=
  ∀ (A : TimeArith K) (q : Q) (x : V) (w : W) (l : Log V K), P x →
    (∀ t dt n, A.lessWithSign t t dt = false → Throughout P l Prod.fst (integrateNStepsDense A st recordObserver q x t dt n (w, l))) ∧
    (∀ t t1 dt, A.lessEqWithSign (A.add t dt) t dt = false → A.lessEqWithSign t (A.add t dt) dt = true → A.lessWithSign t t1 dt = true →
      A.lessEqWithSign (A.add (A.add t dt) dt) t1 dt = true →
      Throughout P l Prod.fst (integrateConstDense A st recordObserver q x t t1 dt (w, l))) ∧
    (∀ t t1 dt, Throughout P l Prod.fst (integrateAdaptiveDense A st recordObserver q x t t1 dt (w, l))) ∧
    (∀ times dt, (∀ t τ rest, times = t :: τ :: rest → A.lessEqWithSign τ t dt = false) →
      Throughout P l Prod.fst (integrateTimesDense A st recordObserver q x times dt (w, l)))

end Verif
