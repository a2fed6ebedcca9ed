import Verif.Model.Heap

/-!
# What it means that a stepper call computes a value

`Implements os h p spec outs exc`: started in heap `h`, the stepper call `p` behaves like the mathematical
recipe `spec` (which calls the system function on values, there is no memory in it):

* if `spec` returns `a`, then `p` returns, the objects listed in `outs a` hold the listed values, and *every
  other object outside the private members of the classes `os` is unchanged*;
* if the system function throws, `p` throws the same exception, and every object outside the private members
  of `os` and outside the list `exc` is unchanged;
* the system function is called with the same arguments in the same order (it sees, and leaves, the same
  `world`).
-/

namespace Verif
variable {K V W α : Type}

/-- Store several values, in order. -/
def Heap.setAll (h : Heap K V W) (l : List (Loc × V)) : Heap K V W :=
  l.foldl (fun h p => h.set p.1 p.2) h

/-- The object `l` has the same contents in both heaps. -/
def Heap.SameAt (h h' : Heap K V W) (l : Loc) : Prop :=
  h'.state l = h.state l ∧ h'.num l = h.num l ∧ h'.flag l = h.flag l ∧ h'.nat l = h.nat l

@[inherit_doc Heap.SameAt]
def Implements (os : List Owner) (h : Heap K V W) (p : StepM K V W Unit) (spec : M W α)
    (outs : α → List (Loc × V)) (exc : List Loc) : Prop :=
  match spec h.world with
  | .ok a w => ∃ h', p h = .ok () h' ∧ h'.world = w ∧
      ∀ l, ¬ l.ownedBy os → (h.setAll (outs a)).SameAt h' l
  | .err e w => ∃ h', p h = .err e h' ∧ h'.world = w ∧
      ∀ l, ¬ l.ownedBy os → l ∉ exc → h.SameAt h' l
  | .ub => p h = .ub
  | .div => p h = .div

/-- Two calls with the same outcome: both return and leave the same value in their result objects, or both
throw the same exception, or both have undefined behaviour or do not return; the system function has been
called in the same way (same final `world`). -/
def SameOutcome (r₁ : Res (Heap K V W) Unit) (out₁ : Loc) (r₂ : Res (Heap K V W) Unit) (out₂ : Loc) : Prop :=
  match r₁, r₂ with
  | .ok _ h₁, .ok _ h₂ => h₁.state out₁ = h₂.state out₂ ∧ h₁.world = h₂.world
  | .err e₁ h₁, .err e₂ h₂ => e₁ = e₂ ∧ h₁.world = h₂.world
  | .ub, .ub => True
  | .div, .div => True
  | _, _ => False

/-- No object of the user other than `out` is changed, and nothing at all is changed by a call that
throws. -/
def OnlyWrites (h : Heap K V W) (r : Res (Heap K V W) Unit) (out : Loc) : Prop :=
  match r with
  | .ok _ h' => ∀ n, Loc.user n ≠ out → h'.state (.user n) = h.state (.user n)
  | .err _ h' => ∀ n, h'.state (.user n) = h.state (.user n)
  | .ub => True
  | .div => True

end Verif
