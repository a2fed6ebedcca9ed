import Verif.Spec.Observers

/-! # Specification vocabulary: interrupting an integration and going on later -/

namespace Verif
variable {Q W S T α : Type}

/-- The observer that notes down every state and time it is called with. -/
def noteObserver : Observer (W × List (S × T)) S T := pureObserver fun x t l => l ++ [(x, t)]

/-- What a stepper computes does not depend on its earlier use. -/
def BasicStepper.Memoryless (st : BasicStepper Q W S T) : Prop :=
  ∀ q q' x t dt, Prod.snd <$> st.doStep q x t dt = Prod.snd <$> st.doStep q' x t dt

/-- A stepper handed over by reference (`boost::ref( stepper )`): its internal state is outside of the integrate function, which only holds the
reference. -/
def BasicStepper.byReference (st : BasicStepper Q W S T) : BasicStepper Unit (W × Q) S T where
  doStep _ x t dt := fun p =>
    match st.doStep p.2 x t dt p.1 with
    | .ok r w => .ok ((), r.2) (w, r.1)
    | .err e w => .err e (w, p.2)
    | .ub => .ub
    | .div => .div

/-- Run `p`, but do not note down its first observation. -/
def withoutFirst (p : M (W × List (S × T)) α) : M (W × List (S × T)) α := fun w =>
  match p (w.1, []) with
  | .ok a w' => .ok a (w'.1, w.2 ++ w'.2.tail)
  | .err e w' => .err e (w'.1, w.2 ++ w'.2.tail)
  | .ub => .ub
  | .div => .div

end Verif
