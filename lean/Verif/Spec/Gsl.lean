import Verif.Model.Gsl

/-!
# What is expected of objects that hold a vector

Every object that exists has a vector of its own.  Here only the sizes of the vectors are followed: an object is constructed
before it is used and destroyed once.
-/

namespace Verif
variable {K : Type}

/-- the sizes of the vectors of the objects that exist -/
abbrev Sizes := ℕ → Option ℕ

/-- The operation is allowed by the language: objects are constructed where there is none, and the others exist. -/
def GslOp.Legal (z : Sizes) : GslOp → Prop
  | .construct o => z o = none
  | .resize o _ => z o ≠ none
  | .destroy o => z o ≠ none
  | .copy o src => z o = none ∧ z src ≠ none
  | .assign o src => z o ≠ none ∧ z src ≠ none

/-- the sizes after the operation, if objects are independent -/
def GslOp.sizes (z : Sizes) : GslOp → Sizes
  | .construct o => Function.update z o (some 1)
  | .resize o n => Function.update z o (some n)
  | .destroy o => Function.update z o none
  | .copy o src => Function.update z o (z src)
  | .assign o src => Function.update z o (z src)

/-- the history is allowed -/
def LegalHistory : Sizes → List GslOp → Prop
  | _, [] => True
  | z, op :: ops => op.Legal z ∧ LegalHistory (op.sizes z) ops

/-- the sizes after the history -/
def finalSizes : Sizes → List GslOp → Sizes
  | z, [] => z
  | z, op :: ops => finalSizes (op.sizes z) ops

/-- Every object that exists has a vector of its own, of the expected size, and there are no other vectors. -/
def OwnVectors (z : Sizes) (s : GslState K) : Prop :=
  ∃ owner : ℕ → ℕ,
    (∀ o, z o = none → s.obj o = none) ∧
    (∀ o n, z o = some n → s.obj o = some (some (owner o)) ∧ ∃ v, s.block (owner o) = some v ∧ v.length = n) ∧
    (∀ o o', z o ≠ none → z o' ≠ none → owner o = owner o' → o = o') ∧
    (∀ a v, s.block a = some v → ∃ o, z o ≠ none ∧ owner o = a) ∧
    (∀ a, s.next ≤ a → s.block a = none)

/-- The operation copies an object. -/
def GslOp.IsCopy : GslOp → Prop
  | .copy _ _ => True
  | .assign _ _ => True
  | _ => False

end Verif
