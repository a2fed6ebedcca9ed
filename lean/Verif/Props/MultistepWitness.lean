import Verif.Props.Multistep
import Verif.Props.InPlace
import Verif.Spec.Fsal

/-!
# C28, C36, C49: what goes wrong in the Adams steppers

Counterexamples to parts of C28, C36 and C49, and concrete runs that meet the hypotheses of the theorems of
`Verif.Props.Multistep`.
-/

namespace Verif

theorem getNat_apply {K V W : Type} (l : Loc) (h : Heap K V W) : getNat l h = .ok (h.nat l) h := rfl
theorem setNat_apply {K V W : Type} (l : Loc) (n : ℕ) (h : Heap K V W) : setNat l n h = .ok () (h.putNat l n) := rfl

theorem M.map_apply' {α β σ : Type} (f : α → β) (m : M σ α) (h : σ) : (f <$> m) h = match m h with
    | .ok a h' => .ok (f a) h'
    | .err e h' => .err e h'
    | .ub => .ub
    | .div => .div := by
  show (m >>= fun a => pure (f a)) h = _
  rw [M.bind_apply]; cases m h <;> rfl

/-- evaluates a call of an Adams stepper on rational data -/
macro "adams_eval" "[" ts:Lean.Parser.Tactic.simpLemma,* "]" : tactic =>
  `(tactic| step_eval [getNat_apply, setNat_apply, Heap.putNat_nat, Heap.putNat_state, Heap.putNat_world, bufAt, bufData,
    bufIndex, bufRotate, bufRefs, mFirst, mStepsInit, ite_apply, exCoeff, interval, zeroHeap, Heap.put_nat, Heap.set_nat',
    Heap.set_world, Heap.put_world, nfrac, M.map_apply',  $ts,*])

/-- C28 is violated by `adams_bashforth<2>`: for `x' = 1`, `x(0) = 0`, `dt = 1` the first step in place with an
`extrapolation_stepper<4>` as initialising stepper leaves `7/3` in `x`, the out-of-place version writes the exact
solution `1`. -/
theorem adams_inplace_warmup_wrong :
    (∃ h₁ : Heap ℚ ℚ Unit,
      abStep 2 (abCoef 2) (.extrapolation 1) (fun _ _ => pure 1) false (.user 0) 0 (.user 0) 1 zeroHeap = .ok () h₁ ∧
      h₁.state (.user 0) = 7 / 3) ∧
    (∃ h₃ : Heap ℚ ℚ Unit,
      abStep 2 (abCoef 2) (.extrapolation 1) (fun _ _ => pure 1) false (.user 0) 0 (.user 1) 1 zeroHeap = .ok () h₃ ∧
      h₃.state (.user 1) = 1) := by
  constructor <;>
  · simp only [abStep, InitStepper.impl, bufAt, bufData, bufIndex, mFirst, mStepsInit, extrapolationImpl,
      extrapolationLoop, extrapolate, midpointImpl, interval]
    norm_num only
    simp only [midpointLoop, extrapolateLoop]
    adams_eval []

/-- The system function `x' = 1` that throws an exception in its second call. -/
def failsOnce : Sys ℚ ℚ ℕ := fun _ _ n => if n = 1 then .err (.user 0) (n + 1) else .ok 1 (n + 1)

/-- all objects zero -/
def zeroHeapN : Heap ℚ ℚ ℕ := ⟨fun _ => 0, fun _ => 0, fun _ => false, fun _ => 0, 0⟩

/-- C49 is violated by `adams_bashforth<2>`: if the system function throws in a step, the stepper has already moved its
history, and the same step done again gives a wrong result: `5/2` instead of `2` for `x' = 1` and `dt = 1` after one step
of the Euler method. -/
theorem adams_exception_unsafe :
    (∃ h' : Heap ℚ ℚ ℕ, (do
      abStep 2 (abCoef 2) (.explicit .euler) failsOnce false (.user 0) 0 (.user 0) 1
      let r ← caught (abStep 2 (abCoef 2) (.explicit .euler) failsOnce false (.user 0) 1 (.user 0) 1)
      abStep 2 (abCoef 2) (.explicit .euler) failsOnce false (.user 0) 1 (.user 0) 1
      pure r) zeroHeapN = .ok (.error (.user 0)) h' ∧ h'.state (.user 0) = 5 / 2) ∧
    (∃ h' : Heap ℚ ℚ ℕ, (do
      abStep 2 (abCoef 2) (.explicit .euler) (countSys fun _ _ => 1) false (.user 0) 0 (.user 0) 1
      abStep 2 (abCoef 2) (.explicit .euler) (countSys fun _ _ => 1) false (.user 0) 1 (.user 0) 1)
      zeroHeapN = .ok () h' ∧ h'.state (.user 0) = 2) := by
  constructor <;>
  · simp only [abStep, InitStepper.impl, ExplicitStepper.impl, eulerImpl, abCallAlgebra, abCoef, bufRefs]
    adams_eval [caught, failsOnce, zeroHeapN, countSys, Heap.withWorld]

/-- C36 is violated by `adams_bashforth_moulton<3>` when the size of the state changes while the method is running: the
predictor restarts with the initialising stepper, but the corrector is applied all the same, with derivatives of the
old system.  For `x' = 1` and `dt = 1` after steps with `x' = 0` the step gives `13/12` instead of the `1` of the
initialising stepper. -/
theorem abm_resize_stale :
    AdamsMemory 3 (zeroHeapN.putNat mStepsInit 2) [0, 0] ∧
    (∃ h' : Heap ℚ ℚ ℕ, abmStep 3 (abCoef 3) (amCoef 3) (.explicit .euler) (countSys fun _ _ => 1) true
      (.user 0) 0 (.user 0) 1 (zeroHeapN.putNat mStepsInit 2) = .ok () h' ∧ h'.state (.user 0) = 13 / 12) ∧
    (∃ h' : Heap ℚ ℚ ℕ, abmStep 3 (abCoef 3) (amCoef 3) (.explicit .euler) (countSys fun _ _ => 1) true
      (.user 0) 0 (.user 0) 1 zeroHeapN = .ok () h' ∧ h'.state (.user 0) = 1) := by
  refine ⟨⟨by decide, by decide, ?_⟩, ?_, ?_⟩
  · intro i v hv
    have : v ∈ ([0, 0] : List ℚ) := List.mem_of_getElem? hv
    simp only [List.mem_cons, List.not_mem_nil, or_false, or_self] at this
    subst this; rfl
  all_goals
    simp only [abmStep, abIsInitialized, abStep, InitStepper.impl, ExplicitStepper.impl, eulerImpl, abCallAlgebra, abCoef,
      amCoef, bufRefs, amStep, abmX, amDxdt]
    adams_eval [caught, failsOnce, zeroHeapN, countSys, Heap.withWorld]

/-- Non-vacuity of C36: three steps of `adams_bashforth<2>` for `x' = t`, `x(0) = 0`, `dt = 1`, beginning with a new
stepper and an Euler step; the Adams-Bashforth formula is exact for the second and third step. -/
example : ∃ h' : Heap ℚ ℚ ℕ, (do
      abStep 2 (abCoef 2) (.explicit .euler) (countSys fun _ t => t) false (.user 0) 0 (.user 0) 1
      abStep 2 (abCoef 2) (.explicit .euler) (countSys fun _ t => t) false (.user 0) 1 (.user 0) 1
      abStep 2 (abCoef 2) (.explicit .euler) (countSys fun _ t => t) false (.user 0) 2 (.user 0) 1)
      zeroHeapN = .ok () h' ∧ h'.state (.user 0) = 0 + 3 / 2 + 5 / 2 := by
  simp only [abStep, InitStepper.impl, ExplicitStepper.impl, eulerImpl, abCallAlgebra, abCoef, bufRefs]
  adams_eval [zeroHeapN, countSys]

example : Adams.InHeap 2 zeroHeapN ⟨some [], fun _ => some 0, 0⟩ := adams_fresh 2 zeroHeapN (by decide) rfl

end Verif
