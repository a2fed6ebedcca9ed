import Verif.Model.AdaptiveAdams

/-!
# Histories of calls of the adaptive Adams steppers

Every call of a history may use another system function, state, time and step size.  A call that throws is followed by the next call.
Along the history the number of steps completed since the last (re-)initialisation is counted.
-/

namespace Verif
variable {K V E W A : Type}

/-- The system function is not undefined behaviour. -/
def Sys.Defined (sys : Sys K V W) : Prop := ∀ x t w, sys x t w ≠ .ub

/-- the public calls of `adaptive_adams_bashforth_moulton` -/
inductive AabmCall (K V W : Type) where
  | doStep (sys : Sys K V W) (x : V) (t dt : K)
  | initialize_ (sys : Sys K V W) (x : V) (t dt : K)
  | initializeWith (start : V → V → K → K → M W V) (sys : Sys K V W) (x : V) (t dt : K)
  | reset

/-- the public calls of `controlled_adams_bashforth_moulton` -/
inductive CabmCall (K V W : Type) where
  | tryStep (sys : Sys K V W) (x : V) (t dt : K)
  | tryStepInOut (sys : Sys K V W) (x : V) (t dt : K)
  | initialize_ (sys : Sys K V W) (x : V) (t dt : K)
  | initializeWith (start : V → V → K → K → M W V) (sys : Sys K V W) (x : V) (t dt : K)
  | initializeControlled (tryOther : V → K → K → M W (CabmOut K V)) (sys : Sys K V W) (x : V) (t dt : K)
  | reset

/-- What the user passes is not itself undefined behaviour. -/
def AabmCall.Defined : AabmCall K V W → Prop
  | .doStep sys _ _ _ => sys.Defined
  | .initialize_ sys _ _ _ => sys.Defined
  | .initializeWith start sys _ _ _ => sys.Defined ∧ ∀ x d t dt w, start x d t dt w ≠ .ub
  | .reset => True

/-- What the user passes is not itself undefined behaviour. -/
def CabmCall.Defined : CabmCall K V W → Prop
  | .tryStep sys _ _ _ => sys.Defined
  | .tryStepInOut sys _ _ _ => sys.Defined
  | .initialize_ sys _ _ _ => sys.Defined
  | .initializeWith start sys _ _ _ => sys.Defined ∧ ∀ x d t dt w, start x d t dt w ≠ .ub
  | .initializeControlled tryOther sys _ _ _ => sys.Defined ∧ ∀ x t dt w, tryOther x t dt w ≠ .ub
  | .reset => True

section
variable [Add K] [Sub K] [Mul K] [Div K] [Neg K] [IntCast K] [StateOps K V]

/-- Run a call after `n` completed steps; returns the number of completed steps. -/
def AabmCall.run (N : ℕ) (O : NumOps K) (n : ℕ) : AabmCall K V W → M (AdState K V E W) ℕ
  | .doStep sys x t dt => do let _ ← aabmDoStep N O sys x t dt; pure (n + 1)
  | .initialize_ sys x t dt => do let _ ← aabmInitialize N O sys x t dt; pure N
  | .initializeWith start sys x t dt => do let _ ← aabmInitializeWith N O start sys x t dt; pure N
  | .reset => do onCoef (M.modify AdamsCoef.reset); pure 0

/-- The number of completed steps if the call throws: a step that throws is not completed, an initialisation that throws may have
completed any number of steps up to `N`. -/
def AabmCall.afterThrow (N n : ℕ) : AabmCall K V W → ℕ
  | .doStep _ _ _ _ => n
  | _ => N

/-- Run a call after `n` completed steps; returns the number of completed steps. -/
noncomputable def CabmCall.run (N : ℕ) (O : NumOps K) (norm : V → K) (P : AdamsAdjuster K V A) (n : ℕ) :
    CabmCall K V W → M (AdState K V (CtrlMem V A) W) ℕ
  | .tryStep sys x t dt => do let r ← cabmTryStep N O norm P sys x t dt; pure (if r.success then n + 1 else n)
  | .tryStepInOut sys x t dt => do let r ← cabmTryStepInOut N O norm P sys x t dt; pure (if r.success then n + 1 else n)
  | .initialize_ sys x t dt => do let _ ← aabmInitialize N O sys x t dt; pure N
  | .initializeWith start sys x t dt => do let _ ← aabmInitializeWith N O start sys x t dt; pure N
  | .initializeControlled tryOther sys x t dt => do let _ ← cabmInitializeControlled N O tryOther sys x t dt; pure N
  | .reset => do onCoef (M.modify AdamsCoef.reset); pure 0

/-- The number of completed steps if the call throws. -/
def CabmCall.afterThrow (N n : ℕ) : CabmCall K V W → ℕ
  | .tryStep _ _ _ _ => n
  | .tryStepInOut _ _ _ _ => n
  | _ => N

end

/-- `try { m } catch( ... ) { n }` -/
def orElse {S α : Type} (m : M S α) (a : α) : M S α := fun s =>
  match m s with
  | .err _ s' => .ok a s'
  | r => r

/-- Run calls one after the other, whether they throw or not; `n` steps are completed at the beginning. -/
def runAll {S C : Type} (run : ℕ → C → M S ℕ) (afterThrow : ℕ → C → ℕ) : ℕ → List C → M S ℕ
  | n, [] => pure n
  | n, c :: cs => do let m ← orElse (run n c) (afterThrow n c); runAll run afterThrow m cs

/-- Whatever happens in the history, nothing is undefined behaviour (no access to the difference table, to the coefficient arrays and to the
history of times is out of bounds), and afterwards the order lies in `1 .. N` and is at most the number of completed steps plus one. -/
def OrderWithin {S : Type} (N : ℕ) (order : S → ℕ) (r : Res S ℕ) : Prop :=
  r ≠ .ub ∧ ∀ n s, r = .ok n s → 1 ≤ order s ∧ order s ≤ N ∧ order s ≤ n + 1

end Verif
