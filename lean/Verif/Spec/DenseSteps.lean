import Verif.Spec.DenseRk
import Verif.Spec.Fsal

/-! # Vocabulary: systems with side effects, the Dormand-Prince step as a function -/

namespace Verif
variable {K V W : Type}

/-- The system function computes `f`: whenever it returns, it returns the value of `f`.  It may have side effects and
it may throw. -/
def SysFor (f : V → K → V) (sys : Sys K V W) : Prop := ∀ x t w v w', sys x t w = .ok v w' → v = f x t

section
variable [Add K] [Sub K] [Mul K] [Div K] [IntCast K] [StateOps K V]

/-- The Dormand-Prince step for a right-hand side without side effects. -/
def dopri5Fun (f : V → K → V) (x k1 : V) (t dt : K) : Dopri5Result V :=
  let k2 := f (lin [(lit 1, x), (dt * frac 1 5, k1)]) (t + dt * frac 1 5)
  let k3 := f (lin [(lit 1, x), (dt * frac 3 40, k1), (dt * frac 9 40, k2)]) (t + dt * frac 3 10)
  let k4 := f (lin [(lit 1, x), (dt * frac 44 45, k1), (dt * frac (-56) 15, k2), (dt * frac 32 9, k3)])
    (t + dt * frac 4 5)
  let k5 := f (lin [(lit 1, x), (dt * frac 19372 6561, k1), (dt * frac (-25360) 2187, k2),
    (dt * frac 64448 6561, k3), (dt * frac (-212) 729, k4)]) (t + dt * frac 8 9)
  let k6 := f (lin [(lit 1, x), (dt * frac 9017 3168, k1), (dt * frac (-355) 33, k2),
    (dt * frac 46732 5247, k3), (dt * frac 49 176, k4), (dt * frac (-5103) 18656, k5)]) (t + dt)
  let y := lin [(lit 1, x), (dt * frac 35 384, k1), (dt * frac 500 1113, k3), (dt * frac 125 192, k4),
    (dt * frac (-2187) 6784, k5), (dt * frac 11 84, k6)]
  ⟨k3, k4, k5, k6, y, f y (t + dt)⟩

/-- The step from `(x,t)` with step size `dt` and derivative `k` is within the limit and its error is acceptable. -/
def AcceptedDopri5 (P : CtrlParams K V) (x k : V) (dt : K) (r : Dopri5Result V) : Prop :=
  P.adjuster.checkStepSizeLimit dt = true ∧ P.gtOne (P.checker.error x k (dopri5Error k dt r) dt).2 = false

/-- The stored derivative belongs to the current state and time. -/
def DopriDense.DerivValid (f : V → K → V) (a : DopriDense K V W) : Prop := ∀ k, a.k = some k → k = f a.x a.t

/-- The last step leads from the previous to the current state: it is an accepted Dormand-Prince step with some step size `dt`. -/
def DopriDense.LastValid (P : CtrlParams K V) (f : V → K → V) (a : DopriDense K V W) : Prop :=
  ∀ s, a.last = some s → ∃ dt, a.t = s.tOld + dt ∧ s.kOld = f s.xOld s.tOld ∧
    AcceptedDopri5 P s.xOld s.kOld dt (dopri5Fun f s.xOld s.kOld s.tOld dt) ∧
    (⟨s.k3, s.k4, s.k5, s.k6, a.x, s.k7⟩ : Dopri5Result V) = dopri5Fun f s.xOld s.kOld s.tOld dt

end
end Verif
