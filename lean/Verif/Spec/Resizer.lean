import Verif.Model.Resizer

/-! # The classical Runge-Kutta step on lists -/

namespace Verif
variable {K : Type} [Add K] [Mul K] [Div K] [IntCast K]

/-- The linear combination of lists of (at least) `n` components. -/
def linList (n : ℕ) (l : List (K × List K)) : List K :=
  (List.range n).map fun i => scaleSumValue (l.map Prod.fst) (l.map fun p => p.2.getD i (lit 0))

/-- One step of the classical Runge-Kutta method for a right-hand side on lists. -/
def rk4ListStep (f : List K → K → List K) (x : List K) (t dt : K) : List K :=
  let dh := dt / lit 2
  let k1 := f x t
  let k2 := f (linList x.length [(lit 1, x), (dh, k1)]) (t + dh)
  let k3 := f (linList x.length [(lit 1, x), (dh, k2)]) (t + dh)
  let k4 := f (linList x.length [(lit 1, x), (dt, k3)]) (t + dt)
  linList x.length [(lit 1, x), (dt / lit 6, k1), (dt / lit 3, k2), (dt / lit 3, k3), (dt / lit 6, k4)]

/-- The private containers of `runge_kutta4_classic`. -/
def rk4Members : List Loc := mDxdt :: rk4Temporaries

/-- All private containers have `n` components. -/
def Sized (n : ℕ) (s : SizedMem K) : Prop := ∀ l ∈ rk4Members, (s.mem l).length = n

/-- Both resizers have seen a call. -/
def Initialized (s : SizedMem K) : Prop := s.initialized baseResizer = true ∧ s.initialized rkResizer = true

/-- Execute calls one after the other. -/
noncomputable def runSized [Sub K] (p : Policy) (resizeable : Bool) : List (SizedCall K) → M (SizedMem K) Unit
  | [] => pure ()
  | c :: cs => do
      c.run p resizeable
      runSized p resizeable cs

/-- The user's right-hand side fills as many components as the state has. -/
def SizedCall.Respects : SizedCall K → Prop
  | .step f _ _ _ _ => ∀ x t, (f x t).length = x.length
  | _ => True

/-- The call is not `adjust_size`. -/
def SizedCall.NoAdjust : SizedCall K → Prop
  | .adjust _ => False
  | _ => True

end Verif
