import Verif.Model.Multistep
import Verif.Spec.Steppers
import Verif.Spec.DenseRk

/-!
# The Adams methods on values

No buffer, no counter: the methods remember the list of the derivatives at the previous states, newest first.
-/

namespace Verif
variable {K V W : Type}

/-! ## `rotating_buffer` -/

/-- Operations on a rotating buffer. -/
inductive BufOp (V : Type) where
  /-- `buffer[i] = v` -/
  | write (i : ℕ) (v : V)
  /-- `buffer.rotate()` -/
  | rotate

/-- What was last written to slot `i`, if every call of `rotate` moves the content of each slot to the next one.
The list of operations is given newest first. -/
def lastWritten : List (BufOp V) → ℕ → Option V
  | [], _ => none
  | .write j v :: ops, i => if i = j then some v else lastWritten ops i
  | .rotate :: ops, i => match i with
    | 0 => none
    | i + 1 => lastWritten ops i

/-- One operation on the buffer of size `N` in the heap. -/
def bufDo (N : ℕ) : BufOp V → StepM K V W Unit
  | .write i v => do
      let s ← bufAt N i
      fun h => .ok () (h.set s v)
  | .rotate => bufRotate N

/-- A sequence of operations, newest first. -/
def bufRun (N : ℕ) : List (BufOp V) → StepM K V W Unit
  | [] => pure ()
  | op :: ops => do
      bufRun N ops
      bufDo N op

/-! ## The Adams methods -/

section
variable [Add K] [Sub K] [Mul K] [Div K] [IntCast K] [Neg K] [StateOps K V]

/-- The formula of an initialising stepper. -/
def InitStepper.recipe : InitStepper K → Recipe K V W
  | .explicit s => s.recipe
  | .extrapolation kmax => extrapolationStep kmax

/-- The stepper can be constructed and its parameters are sensible. -/
def InitStepper.WellFormed : InitStepper K → Prop
  | .explicit s => s.WellFormed
  | .extrapolation kmax => kmax < 32767

/-- The stepper can also be used in place. -/
def InitStepper.inPlace : InitStepper K → Bool
  | .explicit _ => true
  | .extrapolation _ => false

/-- The Adams-Bashforth formula: `x + dt * (c_0 k_0 + c_1 k_1 + ...)` with the derivatives `ks`, newest first. -/
def abFormula (coef : List K) (x : V) (dt : K) (ks : List V) : V := lin ((lit 1, x) :: (coef.map (dt * ·)).zip ks)

/-- One step of the Adams-Bashforth method with `N` steps; `past` are the derivatives at the previous states, newest
first, at most `N-1`.  While there are fewer, the initialising stepper makes the step. -/
def abValue (N : ℕ) (coef : List K) (init : InitStepper K) (sys : Sys K V W) (past : List V) (x : V) (t dt : K) :
    M W (V × List V) := do
  let k ← sys x t
  let y ← if past.length + 1 < N then init.recipe sys x k t dt else pure (abFormula coef x dt (k :: past))
  pure (y, (k :: past).take (N - 1))

/-- One step of the Adams-Bashforth-Moulton method: predict, evaluate, correct. -/
def abmValue (N : ℕ) (cb cm : List K) (init : InitStepper K) (sys : Sys K V W) (past : List V) (x : V) (t dt : K) :
    M W (V × List V) := do
  let k ← sys x t
  let y ← if past.length + 1 < N then init.recipe sys x k t dt else do
    let k' ← sys (abFormula cb x dt (k :: past)) (t + dt)
    pure (abFormula cm x dt (k' :: k :: past))
  pure (y, (k :: past).take (N - 1))

/-- `n` steps of the initialising stepper, as done by `initialize`. -/
def abInitValue (init : InitStepper K) (sys : Sys K V W) (dt : K) : ℕ → List V → V → K → M W (V × List V × K)
  | 0, past, x, t => pure (x, past, t)
  | n + 1, past, x, t => do
      let k ← sys x t
      let y ← init.recipe sys x k t dt
      abInitValue init sys dt n (k :: past) y (t + dt)

/-- The memory of the stepper: the buffer holds the derivatives `past`, newest first, and the counter says how many
there are. -/
def AdamsMemory (N : ℕ) (h : Heap K V W) (past : List V) : Prop :=
  h.nat mFirst < N ∧ min (h.nat mStepsInit) (N - 1) = past.length ∧
    ∀ i v, past[i]? = some v → h.state (bufData (bufIndex N (h.nat mFirst) i)) = v

/-- A call of an Adams stepper; user objects are given by their number. -/
inductive AdamsCall (K : Type) where
  /-- `do_step( sys , x , t , out , dt )` (`out = x`: in place); has the size of the state changed? -/
  | step (resized : Bool) (x : ℕ) (t : K) (out : ℕ) (dt : K)
  /-- `initialize( s , sys , x , t , dt )` -/
  | init (s : InitStepper K) (x : ℕ) (t dt : K)
  /-- `reset()` -/
  | reset

/-- What a user of an Adams stepper can observe, and the derivatives it remembers.  `none` is unknown: the memory of the
stepper after an exception, and the object that a failed call was to write. -/
structure Adams (V W : Type) where
  past : Option (List V)
  user : ℕ → Option V
  world : W

def Adams.InHeap (N : ℕ) (h : Heap K V W) (a : Adams V W) : Prop :=
  h.world = a.world ∧ h.nat mFirst < N ∧ (∀ past, a.past = some past → AdamsMemory N h past) ∧
    ∀ n v, a.user n = some v → h.state (.user n) = v

/-- The result of a step is stored in the user object `out`. -/
def Adams.after (a : Adams V W) (out : ℕ) : Res W (V × List V) → Res (Adams V W) (Option K)
  | .ok r w => .ok none ⟨some r.2, Function.update a.user out (some r.1), w⟩
  | .err e w => .err e ⟨none, Function.update a.user out none, w⟩
  | .ub => .ub
  | .div => .div

/-- The calls on values.  `resized` restarts the method.  Unspecified (`ub`): a step or `initialize` from an unknown
object; the step after an exception without `reset()` or `initialize()`; the steps of the warm-up phase in place with an
initialising stepper that cannot be used in place; and, unless `sizeSafe`, the step after a change of the state size when
the method is already running. -/
def Adams.call (N : ℕ) (value : List V → V → K → K → M W (V × List V)) (init : InitStepper K) (sys : Sys K V W)
    (sizeSafe : Bool) (c : AdamsCall K) (a : Adams V W) : Res (Adams V W) (Option K) :=
  match c with
  | .reset => .ok none ⟨some [], a.user, a.world⟩
  | .init s x t dt =>
      match a.user x with
      | none => .ub
      | some v =>
        match abInitValue s sys dt (N - 1) [] v t a.world with
        | .ok r w => .ok (some r.2.2) ⟨some r.2.1, Function.update a.user x (some r.1), w⟩
        | .err e w => .err e ⟨none, Function.update a.user x none, w⟩
        | .ub => .ub
        | .div => .div
  | .step resized x t out dt =>
      match a.past, a.user x with
      | some past, some v =>
        if (resized = true ∧ sizeSafe = false ∧ ¬ past.length + 1 < N) ∨
            ((resized = true ∨ past.length + 1 < N) ∧ x = out ∧ init.inPlace = false) then .ub else
        a.after out (value (if resized then [] else past) v t dt a.world)
      | _, _ => .ub

/-- The initialising steppers given in a call are well-formed. -/
def AdamsCall.WellFormed : AdamsCall K → Prop
  | .init s _ _ _ => s.WellFormed
  | _ => True

/-- A call whose exceptions are caught by the caller. -/
def caught {H α : Type} (m : M H α) : M H (Except Err α) := fun h =>
  match m h with
  | .ok a h' => .ok (.ok a) h'
  | .err e h' => .ok (.error e) h'
  | .ub => .ub
  | .div => .div

/-- A call of `adams_bashforth` in the heap. -/
def abCall (N : ℕ) (coef : List K) (init : InitStepper K) (sys : Sys K V W) : AdamsCall K → StepM K V W (Option K)
  | .reset => do abReset; pure none
  | .init s x t dt => do
      let t' ← abInitialize N s sys (.user x) t dt
      pure (some t')
  | .step resized x t out dt => do
      abStep N coef init sys resized (.user x) t (.user out) dt
      pure none

/-- A call of `adams_bashforth_moulton` in the heap. -/
def abmCall (N : ℕ) (cb cm : List K) (init : InitStepper K) (sys : Sys K V W) : AdamsCall K → StepM K V W (Option K)
  | .reset => do abReset; pure none
  | .init s x t dt => do
      let t' ← abInitialize N s sys (.user x) t dt
      pure (some t')
  | .step resized x t out dt => do
      abmStep N cb cm init sys resized (.user x) t (.user out) dt
      pure none

end
end Verif
