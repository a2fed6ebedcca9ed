import Verif.Model.ControlledRk
import Mathlib.Analysis.SpecialFunctions.Trigonometric.Arctan

/-!
# Real numbers with infinities and NaN

The special values of floating point arithmetic with exact arithmetic on the finite values: `x / 0` is an infinity for `x ≠ 0`, `0 / 0`,
`∞ - ∞`, `0 * ∞` and `∞ / ∞` are NaN, and comparisons with NaN are false.  There is only one zero, and it counts as positive.
-/

namespace Verif

/-- a finite number, an infinity (`true`: negative) or NaN -/
inductive XR where
  | nan
  | inf (neg : Bool)
  | fin (x : ℝ)

namespace XR
noncomputable section

/-- sign of a real number, zero counts as positive -/
def negative (x : ℝ) : Bool := decide (x < 0)

instance : IntCast XR := ⟨fun n => fin n⟩
instance : Neg XR := ⟨fun
  | nan => nan
  | inf s => inf (!s)
  | fin x => fin (-x)⟩
instance : Add XR := ⟨fun
  | nan, _ => nan
  | _, nan => nan
  | inf s, inf s' => if s = s' then inf s else nan
  | inf s, fin _ => inf s
  | fin _, inf s => inf s
  | fin x, fin y => fin (x + y)⟩
instance : Sub XR := ⟨fun a b => a + -b⟩
instance : Mul XR := ⟨fun
  | nan, _ => nan
  | _, nan => nan
  | inf s, inf s' => inf (xor s s')
  | inf s, fin y => if y = 0 then nan else inf (xor s (negative y))
  | fin x, inf s => if x = 0 then nan else inf (xor s (negative x))
  | fin x, fin y => fin (x * y)⟩
instance : Div XR := ⟨fun
  | nan, _ => nan
  | _, nan => nan
  | inf _, inf _ => nan
  | inf s, fin y => inf (xor s (negative y))
  | fin _, inf _ => fin 0
  | fin x, fin y => if y = 0 then (if x = 0 then nan else inf (negative x)) else fin (x / y)⟩

def lt : XR → XR → Bool
  | fin x, fin y => decide (x < y)
  | fin _, inf s => !s
  | inf s, fin _ => s
  | inf true, inf false => true
  | _, _ => false

def le : XR → XR → Bool
  | fin x, fin y => decide (x ≤ y)
  | fin _, inf s => !s
  | inf s, fin _ => s
  | inf s, inf s' => s || !s'
  | _, _ => false

def eq : XR → XR → Bool
  | fin x, fin y => decide (x = y)
  | inf s, inf s' => s == s'
  | _, _ => false

def abs : XR → XR
  | nan => nan
  | inf _ => inf false
  | fin x => fin |x|

/-- `atan` -/
def atan : XR → XR
  | nan => nan
  | inf true => fin (-(Real.pi / 2))
  | inf false => fin (Real.pi / 2)
  | fin x => fin (Real.arctan x)

/-- the operations, with any function `pow` -/
def ops (pow : XR → XR → XR) (eps : XR) : NumOps XR where
  lt := lt
  le := le
  eq := eq
  abs := abs
  pow := pow
  eps := eps

end
end XR
end Verif
