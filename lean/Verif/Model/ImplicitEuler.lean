import Verif.Model.Steppers
import Mathlib.Data.Matrix.Mul

/-!
# `implicit_euler` (`OI/stepper/implicit_euler.hpp`)

The states are vectors of any length `n`.  The linear algebra of ublas, which is not part of the repository, is a parameter: `factorize` for `lu_factorize` (both the
matrix and the permutation are changed in place; the result tells whether it is zero) and `substitute` for `lu_substitute`.

All members are written before they are read, so that they are local variables here.  A call of `exit( 0 )`, which ends the program, is an outcome of its own.
-/

namespace Verif
variable {K W Pm : Type} {n : ℕ}

/-- `ublas::lu_factorize( m , pm )` (`none`: it returns a number different from zero), `ublas::lu_substitute( m , pm , b )`, and the permutation
that is set up in `OI/stepper/implicit_euler.hpp:84-85` -/
structure Lu (K : Type) (n : ℕ) (Pm : Type) where
  start : Pm
  factorize : Matrix (Fin n) (Fin n) K → Pm → Option (Matrix (Fin n) (Fin n) K × Pm)
  substitute : Matrix (Fin n) (Fin n) K → Pm → (Fin n → K) → Fin n → K

/-- the Jacobian of the user's system, `sys.second( x , J , t )` -/
abbrev IeJac (K W : Type) (n : ℕ) := (Fin n → K) → K → M W (Matrix (Fin n) (Fin n) K)

/-- the variables of the Newton iteration: `m_x`, `m_b`, `m_jacobi`, `m_pm` -/
structure IeIter (K : Type) (n : ℕ) (Pm : Type) where
  mx : Fin n → K
  b : Fin n → K
  J : Matrix (Fin n) (Fin n) K
  pm : Pm

/-- `solve( b , m )` (`OI/stepper/implicit_euler.hpp:147-152`): `b`, `m` and `m_pm` are changed in place; `none` is `exit( 0 )` -/
def ieSolve (L : Lu K n Pm) (b : Fin n → K) (J : Matrix (Fin n) (Fin n) K) (pm : Pm) : Option ((Fin n → K) × Matrix (Fin n) (Fin n) K × Pm) :=
  match L.factorize J pm with
  | none => none
  | some r => some (L.substitute r.1 r.2 b, r.1, r.2)

variable [Ring K]

/-- the first Newton step (`OI/stepper/implicit_euler.hpp:84-101`); `none` is `exit( 0 )` -/
def ieFirst (L : Lu K n Pm) (sys : Sys K (Fin n → K) W) (jac : IeJac K W n) (x : Fin n → K) (t dt : K) : M W (Option (IeIter K n Pm)) := do
  let dxdt ← sys x (t + dt)
  let J ← jac x (t + dt)
  pure (match ieSolve L (dt • dxdt) (dt • J - 1) L.start with
    | none => none
    | some (b, J', pm') => some ⟨x - b, b, J', pm'⟩)

/-- the body of the loop (`OI/stepper/implicit_euler.hpp:107-118`) -/
def ieBody (L : Lu K n Pm) (sys : Sys K (Fin n → K) W) (x : Fin n → K) (t dt : K) (o : Option (IeIter K n Pm)) : M W (Option (IeIter K n Pm)) :=
  match o with
  | none => pure none
  | some it => do
    let dxdt ← sys it.mx (t + dt)
    pure (match ieSolve L (x - it.mx + dt • dxdt) it.J it.pm with
      | none => none
      | some (b, J', pm') => some ⟨it.mx - b, b, J', pm'⟩)

/-- is the loop continued? (`OI/stepper/implicit_euler.hpp:105`); `large b` is `norm_2( b ) > m_epsilon` -/
def ieCond (large : (Fin n → K) → Bool) (o : Option (IeIter K n Pm)) : Bool :=
  match o with
  | none => false
  | some it => large it.b

/-- `do_step( system , x , t , dt )` (`OI/stepper/implicit_euler.hpp:71-121`): the new state; `none` is `exit( 0 )`. -/
noncomputable def ieStep (L : Lu K n Pm) (large : (Fin n → K) → Bool) (sys : Sys K (Fin n → K) W) (jac : IeJac K W n) (x : Fin n → K) (t dt : K) :
    M W (Option (Fin n → K)) := do
  let o ← ieFirst L sys jac x t dt
  let o ← whileM (ieCond large) (ieBody L sys x t dt) o
  pure (o.map IeIter.mx)

/-- the caller's variable `x` -/
structure IeState (K : Type) (n : ℕ) (W : Type) where
  x : Fin n → K
  world : W

/-- the call with the variable of the caller, which is assigned at the end (`OI/stepper/implicit_euler.hpp:120`) -/
noncomputable def ieDoStep (L : Lu K n Pm) (large : (Fin n → K) → Bool) (sys : Sys K (Fin n → K) W) (jac : IeJac K W n) (t dt : K) :
    M (IeState K n W) Bool := fun s =>
  match ieStep L large sys jac s.x t dt s.world with
  | .ok (some x) w => .ok true ⟨x, w⟩
  | .ok none w => .ok false ⟨s.x, w⟩
  | .err e w => .err e ⟨s.x, w⟩
  | .ub => .ub
  | .div => .div

/-! ## The algorithm of ublas, for examples -/

section Ublas
variable {K : Type} [Field K] [DecidableEq K]

/-- the first row from `i` on with the largest absolute value in column `i` (`index_norm_inf`) -/
def luPivot (abs : K → K) (le : K → K → Bool) (n : ℕ) (m : ℕ → ℕ → K) (i : ℕ) : ℕ :=
  (List.range n).foldl (fun p r => if i ≤ r ∧ le (abs (m r i)) (abs (m p i)) = false then r else p) i

/-- one stage of `lu_factorize`: pivot, exchange, scaling of the column, update of the rest; nothing is divided if the pivot is zero -/
def luStage (abs : K → K) (le : K → K → Bool) (n : ℕ) (s : (ℕ → ℕ → K) × (ℕ → ℕ) × Bool) (i : ℕ) : (ℕ → ℕ → K) × (ℕ → ℕ) × Bool :=
  let p := luPivot abs le n s.1 i
  if s.1 p i = 0 then
    (fun r c => if i < r ∧ i < c then s.1 r c - s.1 r i * s.1 i c else s.1 r c, s.2.1, true)
  else
    let m1 := fun r c => if r = i then s.1 p c else if r = p then s.1 i c else s.1 r c
    let m2 := fun r c => if i < r ∧ c = i then m1 r i * (1 / m1 i i) else m1 r c
    (fun r c => if i < r ∧ i < c then m2 r c - m2 r i * m2 i c else m2 r c, fun k => if k = i ∧ p ≠ i then p else s.2.1 k, s.2.2)

/-- `v` with the rows exchanged in turn (`swap_rows`) -/
def luSwap (n : ℕ) (pm : ℕ → ℕ) (v : ℕ → K) : ℕ → K :=
  (List.range n).foldl (fun v i k => if k = i then v (pm i) else if k = pm i then v i else v k) v

/-- the solution of the lower triangular system with ones on the diagonal -/
def luLower (n : ℕ) (m : ℕ → ℕ → K) (v : ℕ → K) : ℕ → K :=
  (List.range n).foldl (fun v c r => if c < r then v r - v c * m r c else v r) v

/-- the solution of the upper triangular system -/
def luUpper (n : ℕ) (m : ℕ → ℕ → K) (v : ℕ → K) : ℕ → K :=
  (List.range n).reverse.foldl (fun v c r => if r = c then v c / m c c else if r < c then v r - v c / m c c * m r c else v r) v

/-- the function on `Fin n`, extended by zero -/
def unFin (v : Fin n → K) (i : ℕ) : K := if h : i < n then v ⟨i, h⟩ else 0

/-- `lu_factorize` and `lu_substitute` of ublas (`boost/numeric/ublas/lu.hpp`, not in the repository) -/
def ublasLu (abs : K → K) (le : K → K → Bool) (n : ℕ) : Lu K n (ℕ → ℕ) where
  start := id
  factorize J pm :=
    let r := (List.range n).foldl (luStage abs le n) (fun i j => if h : i < n ∧ j < n then J ⟨i, h.1⟩ ⟨j, h.2⟩ else 0, pm, false)
    if r.2.2 then none else some (fun i j => r.1 i j, r.2.1)
  substitute m pm b i :=
    let m' := fun i j => if h : i < n ∧ j < n then m ⟨i, h.1⟩ ⟨j, h.2⟩ else 0
    luUpper n m' (luLower n m' (luSwap n pm (unFin b))) i

end Ublas

end Verif
