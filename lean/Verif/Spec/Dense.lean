import Verif.Spec.Integrate
import Verif.Spec.Direction

/-!
# Specification vocabulary for dense output steppers
(`doc/concepts/dense_output_stepper.qbk`)
-/

namespace Verif
variable {Q S T : Type}

/-- A dense output stepper given by arbitrary functions that may throw. -/
structure PureDense (Q S T : Type) where
  init : Q → S → T → T → Except Err Q
  doStep : Q → Except Err Q
  calcState : Q → T → Except Err S
  curState : Q → S
  curTime : Q → T
  curDt : Q → T

/-- Record a call, then let the result or the exception through. -/
def logCall {S T α : Type} (e : Event S T) (r : Except Err α) : M (Log S T) α := fun w =>
  match r with
  | .ok a => .ok a (w ++ [e])
  | .error x => .err x (w ++ [e])

/-- The dense output stepper `p` with all its calls recorded. -/
def loggedDense (p : PureDense Q S T) : DenseStepper Q (Log S T) S T where
  init q x t dt := logCall (.init x t dt) (p.init q x t dt)
  doStep q := logCall (.step (p.curState q) (p.curTime q) (p.curDt q)) (p.doStep q)
  calcState q t := logCall (.calc t) (p.calcState q t)
  curState := p.curState
  curTime := p.curTime
  curDt := p.curDt

/-- Part of the dense-output-stepper concept: `initialize` sets the current state, time and step size,
and steps never change the direction of integration. -/
structure DenseDir {K : Type} [Field K] [LinearOrder K] (p : PureDense Q S K) : Prop where
  init_state : ∀ q x t dt q', p.init q x t dt = .ok q' → p.curState q' = x
  init_time : ∀ q x t dt q', p.init q x t dt = .ok q' → p.curTime q' = t
  init_dt : ∀ q x t dt q', p.init q x t dt = .ok q' → p.curDt q' = dt
  dir : ∀ q q', p.doStep q = .ok q' → p.curDt q ≠ 0 → SameDir (p.curDt q) (p.curDt q')

/-- The dense-output-stepper concept in exact arithmetic: in addition each step advances the current
time, by at most the current step size. -/
structure DenseContract {K : Type} [Field K] [LinearOrder K] (p : PureDense Q S K) : Prop
    extends DenseDir p where
  advance : ∀ q q', p.doStep q = .ok q' → p.curDt q ≠ 0 →
    SameDir (p.curDt q) (p.curTime q' - p.curTime q) ∧
      |p.curTime q' - p.curTime q| ≤ |p.curDt q|

/-- `b` is reached from `a` (both `(state, time)`) by one `do_step` of the dense output stepper, in the
direction of `dt`, not longer than the stepper's step size, and `b` is not beyond `t1`. -/
def DenseStep {K : Type} [Field K] [LinearOrder K] (p : PureDense Q S K) (eps dt t1 : K) (a b : S × K) :
    Prop :=
  ∃ q q', p.doStep q = .ok q' ∧ p.curState q = a.1 ∧ p.curTime q = a.2 ∧ p.curState q' = b.1 ∧
    p.curTime q' = b.2 ∧ SameDir dt (b.2 - a.2) ∧ |b.2 - a.2| ≤ |p.curDt q| ∧ ¬ Beyond eps dt b.2 t1

/-- An event that is neither a step nor an initialisation of the stepper. -/
def Event.isPassive {S T : Type} : Event S T → Bool
  | .obs .. => true
  | .calc .. => true
  | _ => false

/-- In the run with log `w` the state `y` was obtained at time `τ` by interpolation: it was observed right
after a call of `calc_state` for `τ` that returned it; the latest call before that which changed the
stepper was a `do_step` leading from `q` to `q'`, and `τ` lies between the beginning (exclusive) and the end
(inclusive) of that step, up to `eps`. -/
def Interpolated {K : Type} [Field K] [LinearOrder K] (p : PureDense Q S K) (eps dt : K) (w : Log S K)
    (y : S) (τ : K) : Prop :=
  ∃ q q' pre mid post,
    w = pre ++ [.step (p.curState q) (p.curTime q) (p.curDt q)] ++ mid ++ [.calc τ, .obs y τ] ++ post ∧
    (∀ e ∈ mid, e.isPassive = true) ∧ p.doStep q = .ok q' ∧ p.calcState q' τ = .ok y ∧
    Beyond eps dt τ (p.curTime q) ∧ ¬ Beyond eps dt τ (p.curTime q')

/-- The stepper state `q'` is the result of the latest stepper call in the log, a `do_step` from `q`. -/
def LatestStep {T : Type} (p : PureDense Q S T) (w : Log S T) (q q' : Q) : Prop :=
  ∃ pre mid, w = pre ++ [.step (p.curState q) (p.curTime q) (p.curDt q)] ++ mid ∧
    (∀ e ∈ mid, e.isPassive = true) ∧ p.doStep q = .ok q'

/-- Like `Interpolated`, with both ends of the step included: in the run with log `w` the state `y` was
observed right after a call of `calc_state` for `τ` that returned it, the latest stepper-changing call
before that was a `do_step`, and `τ` lies between the beginning and the end of that step, up to `eps`. -/
def InsideStep {K : Type} [Field K] [LinearOrder K] (p : PureDense Q S K) (eps dt : K) (w : Log S K)
    (y : S) (τ : K) : Prop :=
  ∃ q q' pre post, w = pre ++ [.calc τ, .obs y τ] ++ post ∧ LatestStep p pre q q' ∧
    p.calcState q' τ = .ok y ∧ ¬ Beyond eps dt (p.curTime q) τ ∧ ¬ Beyond eps dt τ (p.curTime q')

/-- Progress: every `do_step` advances by the full current step size or at least by `g`, and the next step
size is not smaller than `g` or the step just made. -/
structure MinProgress {K : Type} [Field K] [LinearOrder K] (p : PureDense Q S K) (g : K) : Prop where
  adv : ∀ q q', p.doStep q = .ok q' → p.curDt q ≠ 0 →
    p.curTime q' = p.curTime q + p.curDt q ∨ g ≤ |p.curTime q' - p.curTime q|
  next : ∀ q q', p.doStep q = .ok q' → p.curDt q ≠ 0 →
    min g |p.curTime q' - p.curTime q| ≤ |p.curDt q'|

/-- The requested times are monotone in the direction of `dt`. -/
def MonotoneTimes {K : Type} [Field K] [LinearOrder K] (dt : K) (l : List K) : Prop :=
  l.Pairwise fun a b => if 0 < dt then a ≤ b else b ≤ a

/-- A concrete dense output stepper for the non-vacuity examples: it solves `x' = 1` exactly and
multiplies its step size by `g` after every step.  Its state is `(x, t, dt)`. -/
def rampDense {K : Type} [Field K] (g : K) : PureDense (K × K × K) K K where
  init _ x t dt := .ok (x, t, dt)
  doStep q := .ok (q.1 + q.2.2, q.2.1 + q.2.2, g * q.2.2)
  calcState q t := .ok (q.1 + (t - q.2.1))
  curState q := q.1
  curTime q := q.2.1
  curDt q := q.2.2

theorem rampDense_contract {K : Type} [Field K] [LinearOrder K] [IsStrictOrderedRing K] (g : K)
    (hg : 0 < g) : DenseContract (rampDense g) where
  init_state := by rintro _ _ _ _ _ ⟨⟩; rfl
  init_time := by rintro _ _ _ _ _ ⟨⟩; rfl
  init_dt := by rintro _ _ _ _ _ ⟨⟩; rfl
  dir := by
    rintro ⟨x, t, dt⟩ _ ⟨⟩ h
    rcases lt_or_gt_of_ne h with h | h
    · exact .inr ⟨h, mul_neg_of_pos_of_neg hg h⟩
    · exact .inl ⟨h, mul_pos hg h⟩
  advance := by
    rintro ⟨x, t, dt⟩ _ ⟨⟩ h
    simp only [rampDense, add_sub_cancel_left, le_refl, and_true]
    rcases lt_or_gt_of_ne h with h | h
    · exact .inr ⟨h, h⟩
    · exact .inl ⟨h, h⟩

end Verif
