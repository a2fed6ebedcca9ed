import Verif.Model.Integrate

/-!
# Specification vocabulary: observers that only observe

The stepper (and the system function) works on a world `W`, the observers on a separate world `V`.
-/

namespace Verif
variable {Q W V S T α : Type}

/-- An observer that updates its own data and returns normally. -/
def pureObserver (o : S → T → V → V) : Observer (W × V) S T := fun x t p => .ok () (p.1, o x t p.2)

/-- The observer number `i` of a family, with its own slot of data. -/
def slotObserver {n : ℕ} (o : Fin n → S → T → V → V) (i : Fin n) : Observer (W × (Fin n → V)) S T :=
  pureObserver (fun x t v => Function.update v i (o i x t (v i)))

/-- A stepper that does not touch the observers' data. -/
def BasicStepper.lift (V : Type) (st : BasicStepper Q W S T) : BasicStepper Q (W × V) S T where
  doStep q x t dt := (st.doStep q x t dt).onFst

/-- A controlled stepper that does not touch the observers' data. -/
def ControlledStepper.lift (V : Type) (st : ControlledStepper Q W S T) :
    ControlledStepper Q (W × V) S T where
  tryStep q x t dt := (st.tryStep q x t dt).onFst

/-- A dense output stepper that does not touch the observers' data. -/
def DenseStepper.lift (V : Type) (st : DenseStepper Q W S T) : DenseStepper Q (W × V) S T where
  init q x t dt := (st.init q x t dt).onFst
  doStep q := (st.doStep q).onFst
  calcState q t := (st.calcState q t).onFst
  curState := st.curState
  curTime := st.curTime
  curDt := st.curDt

/-- Look at an outcome through a projection of the world. -/
def Res.view {W U α : Type} (g : W → U) : Res W α → Res U α
  | .ok a w => .ok a (g w)
  | .err e w => .err e (g w)
  | .ub => .ub
  | .div => .div

end Verif
