import Verif.Model.Parallel

/-! # Schedules -/

namespace Verif
variable {ι K : Type}

/-- A schedule is complete if every task is executed to its end. -/
def Complete (prog : ℕ → List (Instr ι K)) (sched : List ℕ) : Prop := ∀ i, (prog i).length ≤ sched.count i

/-- `l` is an interleaving of the lists `ls`: the next entry is always the next one of one of the lists. -/
inductive Interleaving {α : Type} : List (List α) → List α → Prop where
  | done {ls : List (List α)} (h : ∀ l ∈ ls, l = []) : Interleaving ls []
  | step {ls : List (List α)} {k : ℕ} {a : α} {rest l : List α} (hk : ls[k]? = some (a :: rest))
      (h : Interleaving (ls.set k rest) l) : Interleaving ls (a :: l)

/-- The steps of a thread that handles the given iterations one after the other. -/
def threadSteps (prog : ℕ → List (Instr ι K)) (iterations : List ℕ) : List ℕ :=
  iterations.flatMap fun i => List.replicate (prog i).length i

/-- The components an instruction refers to. -/
def Instr.cells : Instr ι K → List (Cell ι)
  | .enter => []
  | .act refs _ => refs

/-- The components a task refers to. -/
def taskCells (l : List (Instr ι K)) : List (Cell ι) := l.flatMap Instr.cells

/-- The argument an action uses. -/
def Action.arg : Action K → ℕ
  | .load j => j
  | .store j _ => j

/-- The blocks of a list cut at `cut 0`, `cut 1`, ... -/
def block (cut : ℕ → ℕ) (l : List K) (i : ℕ) : List K := (l.take (cut (i + 1))).drop (cut i)

end Verif
