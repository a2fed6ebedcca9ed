import Verif.Spec.Controlled
import Verif.Spec.Checker

/-!
# Specification vocabulary: controlled steppers on an equidistant grid
-/

namespace Verif
variable {Q S T : Type}

/-- The calls that are not observer calls. -/
def Log.withoutObs (l : Log S T) : Log S T := l.filter fun e => !e.isObs

/-- `n` intervals treated one after the other by `integrate_adaptive`, each time with a copy of the
stepper `q`: interval `k` starts in state `X k` with step size `D k` at `time k`, ends at
`time k + dt`, takes `N k` accepted steps and makes the calls `L k`. -/
structure GridRun (A : TimeArith T) (f : Q → S → T → T → Except Err (TryResult Q S T)) (q : Q)
    (x : S) (time : ℕ → T) (dt : T) (n : ℕ) (X : ℕ → S) (D : ℕ → T) (N : ℕ → ℕ) (L : ℕ → Log S T) :
    Prop where
  state0 : X 0 = x
  dt0 : D 0 = dt
  interval : ∀ k < n, ∃ t', integrateAdaptiveControlled A (loggedControlled f) record q (X k) (time k)
    (A.add (time k) dt) (D k) [] = .ok ⟨X (k + 1), t', D (k + 1), N k⟩ (L k)

/-- The calls made before grid point `n`: an observation at each earlier grid point followed by the
trials of that interval (without observations in between). -/
def intervalCalls (X : ℕ → S) (time : ℕ → T) (L : ℕ → Log S T) (n : ℕ) : Log S T :=
  (List.range n).flatMap fun k => .obs (X k) (time k) :: (L k).withoutObs

end Verif
