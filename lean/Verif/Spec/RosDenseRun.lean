import Verif.Model.Rosenbrock
import Verif.Spec.DenseRun

/-! # `rosenbrock4_dense_output` as the integrate functions see it -/

namespace Verif
variable {K V W Mat : Type}

/-- A `rosenbrock4_dense_output` object as the integrate functions see it: see `denseObject`. -/
noncomputable def rosDenseObject [Add K] [Sub K] [Mul K] [Div K] [Neg K] [IntCast K] [StateOps K V] (P : RosParams K V) (C : RosCoef K)
    (solve : K → Mat → V → V) (sys : Sys K V W) (jac : Jac K V W Mat) : DenseStepper (Heap K V W) (W × Log V K) V K where
  init q x t dt := fun w =>
    match rosDenseInit (.user 0) t dt ((q.set (.user 0) x).withWorld w.1) with
    | .ok () h => .ok h (h.world, w.2)
    | .err e h => .err e (h.world, w.2)
    | .ub => .ub
    | .div => .div
  doStep q := fun w =>
    match rosDenseDoStep P C solve sys jac (q.withWorld w.1) with
    | .ok _ h => .ok h (h.world, w.2)
    | .err e h => .err e (h.world, w.2)
    | .ub => .ub
    | .div => .div
  calcState q t := fun w =>
    match rosDenseCalcState t (.user 0) (q.withWorld w.1) with
    | .ok () h => .ok (h.state (.user 0)) (h.world, w.2)
    | .err e h => .err e (h.world, w.2)
    | .ub => .ub
    | .div => .div
  curState := currentState
  curTime := currentTime
  curDt := currentTimeStep

end Verif
