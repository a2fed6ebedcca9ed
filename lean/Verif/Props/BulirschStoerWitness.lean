import Verif.Props.BulirschStoer

/-!
# Runs of `bulirsch_stoer` on concrete data
-/

namespace Verif
set_option linter.unusedSectionVars false

/-- exact rational arithmetic; the powers do not matter for the runs below -/
def bsRatOps : NumOps ℚ := ⟨fun a b => decide (a < b), fun a b => decide (a ≤ b), fun a b => decide (a = b), fun a => |a|, fun _ _ => 1, 0⟩

/-- a checker that returns the error estimate itself -/
def bsRat : BsParams ℚ ℚ := ⟨bsRatOps, ⟨fun _ _ e _ => (e, |e|)⟩, 0⟩

/-- the result of a try and the final value of an object -/
def bsShow (l : Loc) : Res (BsState ℚ ℚ Unit) (TryOut ℚ) → Option (Bool × ℚ × ℚ × ℚ)
  | .ok r s => some (r.success, r.t, r.dt, s.heap.state l)
  | _ => none

theorem bsShow_eq {l : Loc} {r : Res (BsState ℚ ℚ Unit) (TryOut ℚ)} {a : Bool} {b c d : ℚ} (h : bsShow l r = some (a, b, c, d)) :
    ∃ s, r = .ok ⟨a, b, c⟩ s ∧ s.heap.state l = d := by
  cases r with
  | ok r s =>
    simp only [bsShow, Option.some.injEq, Prod.mk.injEq] at h
    obtain ⟨rfl, rfl, rfl, rfl⟩ := h
    exact ⟨s, rfl, rfl⟩
  | err e s => cases h
  | ub => cases h
  | div => cases h

/-- `try_step( sys , in , t , out , dt )` with the same object as input and output: for `x' = 1/9`, `x(0) = 0`, `dt = 1` the wrong value `7/27` is accepted
(the overwritten input is used in the second stage), with different objects the exact solution `1/9`. -/
theorem bs_inplace_wrong :
    (∃ s : BsState ℚ ℚ Unit,
      bsTry3 bsRat false (fun _ _ => pure (1 / 9)) (.user 0) 0 (.user 0) 1 ⟨BsCtl.construct 0, zeroHeap⟩ = .ok ⟨true, 1, 47 / 50⟩ s ∧
      s.heap.state (.user 0) = 7 / 27) ∧
    (∃ s : BsState ℚ ℚ Unit,
      bsTry3 bsRat false (fun _ _ => pure (1 / 9)) (.user 0) 0 (.user 1) 1 ⟨BsCtl.construct 0, zeroHeap⟩ = .ok ⟨true, 1, 1⟩ s ∧
      s.heap.state (.user 1) = 1 / 9) :=
  ⟨bsShow_eq (by decide +kernel), bsShow_eq (by decide +kernel)⟩

end Verif
