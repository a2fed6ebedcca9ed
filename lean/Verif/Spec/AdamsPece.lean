import Verif.Spec.AdaptiveAdams
import Verif.Spec.Extrapolation
import Mathlib.LinearAlgebra.Lagrange
import Mathlib.MeasureTheory.Integral.IntervalIntegral.Basic

/-!
# The predictor-corrector method of Adams with variable steps

A history is a sequence of points `( t_j , f_j )`, the newest first.
-/

namespace Verif
open Polynomial

/-- a new point in front of a history -/
def push {α : Type} (a : α) (s : ℕ → α) : ℕ → α
  | 0 => a
  | j + 1 => s j

/-- `∫_a^b L_j`, where `L_j` is the polynomial of degree `k - 1` which is one at `τ_j` and zero at the other nodes of `τ_0 , ... , τ_{k-1}`. -/
noncomputable def adamsWeight (k : ℕ) (τ : ℕ → ℝ) (a b : ℝ) (j : ℕ) : ℝ :=
  ∫ s in a..b, (Lagrange.basis (Finset.range k) τ j).eval s

variable {V W : Type} [AddCommGroup V] [Module ℝ V]

/-- `x + ∫_a^b P`, where `P` is the polynomial of degree less than `k` through the first `k` points of the history. -/
noncomputable def adamsValue (k : ℕ) (h : ℕ → ℝ × V) (a b : ℝ) (x : V) : V :=
  x + ∑ j ∈ Finset.range k, adamsWeight k (fun j => (h j).1) a b j • (h j).2

/-- P: the predictor of order `k` uses the last `k` points of the history. -/
noncomputable def adamsP (k : ℕ) (h : ℕ → ℝ × V) (x : V) (t dt : ℝ) : V := adamsValue k h t (t + dt) x

/-- PEC: the corrector uses the derivative at the predicted point as well. -/
noncomputable def adamsPec (f : V → ℝ → V) (k : ℕ) (h : ℕ → ℝ × V) (x : V) (t dt : ℝ) : V :=
  adamsValue (k + 1) (push (t + dt, f (adamsP k h x t dt) (t + dt)) h) t (t + dt) x

/-- `r` is the result of a step of order `k` from `( x , t )` with the history `h`: the corrected value, and as error estimate the difference
between the corrected and the predicted value. -/
def IsPec (f : V → ℝ → V) (k : ℕ) (h : ℕ → ℝ × V) (x : V) (t dt : ℝ) (r : V × V) : Prop :=
  r.1 = adamsPec f k h x t dt ∧ r.2 = r.1 - adamsP k h x t dt

/-! ## Runs -/

/-- `try { return m } catch( ... ) {}` -/
def attempt {S α : Type} (m : M S α) : M S (Option α) := fun s =>
  match m s with
  | .ok a s' => .ok (some a) s'
  | .err _ s' => .ok none s'
  | .ub => .ub
  | .div => .div

/-- Steps of the uncontrolled stepper with the given step sizes, from `( x , t )`; after a step that throws the next one starts at the same
point.  Returns what the steps return. -/
noncomputable def stepAll {E : Type} (N : ℕ) (O : NumOps ℝ) (sys : Sys ℝ V W) : List ℝ → V → ℝ → M (AdState ℝ V E W) (List (Option (V × V)))
  | [], _, _ => pure []
  | dt :: dts, x, t => do
    let r ← attempt (aabmDoStep N O sys x t dt)
    let rs ← match r with
      | some r => stepAll N O sys dts r.1 (t + dt)
      | none => stepAll N O sys dts x t
    pure (r :: rs)

/-- The steps are those of the PECE method with increasing order: after `n` steps, from the point `( x , t )` with the history `h`, the order is
`n + 1` but at most `N`.  The last E puts the new point in front of the history. -/
def PeceSteps (f : V → ℝ → V) (N : ℕ) : ℕ → (ℕ → ℝ × V) → V → ℝ → List ℝ → List (Option (V × V)) → Prop
  | _, _, _, _, [], [] => True
  | n, h, x, t, dt :: dts, some r :: rs =>
    IsPec f (min (n + 1) N) h x t dt r ∧ PeceSteps f N (n + 1) (push (t + dt, f r.1 (t + dt)) h) r.1 (t + dt) dts rs
  | n, h, x, t, _ :: dts, none :: rs => PeceSteps f N n h x t dts rs
  | _, _, _, _, _, _ => False

/-- Tries of the controlled stepper with the given step sizes, from `( x , t )`; a try that is rejected or throws is followed by a try from
the same point.  Returns the order in front of each try and what the try returns. -/
noncomputable def tryAll {A : Type} (N : ℕ) (O : NumOps ℝ) (norm : V → ℝ) (P : AdamsAdjuster ℝ V A) (sys : Sys ℝ V W) :
    List ℝ → V → ℝ → M (AdState ℝ V (CtrlMem V A) W) (List (ℕ × Option (CabmOut ℝ V)))
  | [], _, _ => pure []
  | dt :: dts, x, t => do
    let s ← M.get
    let r ← attempt (cabmTryStep N O norm P sys x t dt)
    let rs ← match r with
      | some r => if r.success then tryAll N O norm P sys dts r.out r.t else tryAll N O norm P sys dts x t
      | none => tryAll N O norm P sys dts x t
    pure ((s.coef.eo, r) :: rs)

/-- Every try is a step of the PECE method of the order `k` chosen for it, which is at most `N` and the number `n + 1` of points available. -/
def PeceTries (f : V → ℝ → V) (N : ℕ) : ℕ → (ℕ → ℝ × V) → V → ℝ → List ℝ → List (ℕ × Option (CabmOut ℝ V)) → Prop
  | _, _, _, _, [], [] => True
  | n, h, x, t, dt :: dts, (k, some r) :: rs =>
    1 ≤ k ∧ k ≤ min (n + 1) N ∧ r.out = adamsPec f k h x t dt ∧
      (if r.success then r.t = t + dt ∧ PeceTries f N (n + 1) (push (t + dt, f r.out (t + dt)) h) r.out (t + dt) dts rs
        else r.t = t ∧ PeceTries f N n h x t dts rs)
  | n, h, x, t, _ :: dts, (_, none) :: rs => PeceTries f N n h x t dts rs
  | _, _, _, _, _, _ => False

/-- The points computed by `n` steps of another stepper `S x dxdt t δ` from `( x , t )`, and their history. -/
noncomputable def startPoints (f : V → ℝ → V) (S : V → V → ℝ → ℝ → V) (x : V) (t δ : ℝ) : ℕ → V × ℝ × (ℕ → ℝ × V)
  | 0 => (x, t, fun _ => (t, f x t))
  | n + 1 =>
    let p := startPoints f S x t δ n
    let x' := S p.1 (f p.1 p.2.1) p.2.1 δ
    (x', p.2.1 + δ, push (p.2.1 + δ, f x' (p.2.1 + δ)) p.2.2)

end Verif
