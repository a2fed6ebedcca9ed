import Verif.Model.Algebra
import Mathlib.Data.List.Perm.Basic

/-!
# Operations and norms for the containers of other libraries (`OI/external`)

The adapters replace `default_operations` and `norm_inf` by own versions: `mkl_operations` works with calls of BLAS on
whole vectors, `thrust_operations` and `compute_operations` repeat the formulas in functors for the graphics
processor.  The libraries themselves are not part of the repository; what is modelled of them is said at each
definition.
-/

namespace Verif
variable {ι K : Type}

/-! ## `mkl_operations` -/

section Mkl
variable [Add K] [Mul K] [IntCast K]

/-- `cblas_dcopy( n , x , 1 , y , 1 )` for `y` = argument 0 and `x` = argument 1, component by component.  BLAS is not
part of the repository. -/
def blasCopyOp : List (Action K) := [.load 1, .store 0 (fun v => v.headD (lit 0))]

/-- `cblas_dscal( n , a , y , 1 )`: `y[i] = a * y[i]` -/
def blasScalOp (a : K) : List (Action K) := [.load 0, .store 0 (fun v => a * v.headD (lit 0))]

/-- `cblas_daxpy( n , a , x , 1 , y , 1 )`: `y[i] = y[i] + a * x[i]` -/
def blasAxpyOp (a : K) : List (Action K) :=
  [.load 0, .load 1, .store 0 (fun v => v.getD 0 (lit 0) + a * v.getD 1 (lit 0))]

variable [DecidableEq ι]

/-- the calls of `cblas_daxpy`, one after the other -/
noncomputable def mklAxpys (t1 : ι) : List (K × ι) → M (Mem ι K) Unit
  | [] => pure ()
  | p :: ps => do
      rangeForEach (blasAxpyOp p.1) t1 [p.2]
      mklAxpys t1 ps

/-- the copy at the beginning of `mkl_operations::scale_sum2` ... `scale_sum5`
(e.g. `OI/external/mkl/mkl_operations.hpp:60-63`): nothing is copied if the first summand is the output -/
noncomputable def mklCopyFirst (t1 t2 : ι) : M (Mem ι K) Unit :=
  if t2 ≠ t1 then rangeForEach blasCopyOp t1 [t2] else pure ()

/-- `mkl_operations::scale_sum2` ... `scale_sum5` (`OI/external/mkl/mkl_operations.hpp:41-170`), called on whole
containers by `vector_space_algebra`: copy of `t2` into `t1` unless they are the same, scaling, and one `daxpy` for each
other summand.  `n` is `t1.size()`.  (For an empty container the addresses `&(t1[0])` are not defined, strictly
speaking; here nothing happens.) -/
noncomputable def mklScaleSum (t1 : ι) : List (K × ι) → M (Mem ι K) Unit
  | [] => pure ()
  | (a1, t2) :: ps => do
      mklCopyFirst t1 t2
      rangeForEach (blasScalOp a1) t1 []
      mklAxpys t1 ps

end Mkl

/-! ## `thrust_operations`, `compute_operations` -/

/-- `thrust_operations::rel_error::operator()` (`OI/external/thrust/thrust_operations.hpp:205-227`) and
`compute_operations::rel_error` (`OI/external/compute/compute_operations.hpp:158-189`) for one component.  The parentheses
are those of the code. -/
def thrustRelError [Add K] [Mul K] [Div K] (O : NumOps K) (epsAbs epsRel aX aDxdt : K) (err x dxdt : K) : K :=
  O.abs err / (epsAbs + epsRel * (aX * O.abs (x + aDxdt * O.abs dxdt)))

/-- `for_each3( x_err , x_old , dxdt_old , rel_error )`: one call for each component -/
def thrustRelErrorLoop [Add K] [Mul K] [Div K] (O : NumOps K) (epsAbs epsRel aX aDxdt : K) :
    List K → List K → List K → List K
  | e :: es, x :: xs, d :: ds =>
      thrustRelError O epsAbs epsRel aX aDxdt e x d :: thrustRelErrorLoop O epsAbs epsRel aX aDxdt es xs ds
  | _, _, _ => []

/-- `detail::maximum::operator()` (`OI/external/thrust/thrust_algebra.hpp:33-46`) -/
def thrustMaximum (O : NumOps K) (t1 t2 : K) : K := if O.lt (O.abs t1) (O.abs t2) then t2 else t1

/-- The order in which a parallel reduction combines values. -/
inductive ReduceTree (K : Type) where
  | leaf (v : K)
  | node (l r : ReduceTree K)

/-- the values at the leaves, from left to right -/
def ReduceTree.leaves : ReduceTree K → List K
  | .leaf v => [v]
  | .node l r => l.leaves ++ r.leaves

/-- the result of the reduction -/
def ReduceTree.eval (op : K → K → K) : ReduceTree K → K
  | .leaf v => v
  | .node l r => op (l.eval op) (r.eval op)

/-- `thrust_algebra::norm_inf( s )` (`OI/external/thrust/thrust_algebra.hpp:199-206`) may return `v`:
`thrust::reduce( begin , end , 0 , maximum )` combines the initial value and the elements in any order and with any
parentheses (thrust is not part of the repository). -/
def ThrustNormInf [IntCast K] (O : NumOps K) (s : List K) (v : K) : Prop :=
  ∃ T : ReduceTree K, T.leaves.Perm (lit 0 :: s) ∧ v = T.eval (thrustMaximum O)

/-- `default_error_checker::error` (`OI/stepper/controlled_runge_kutta.hpp:79-91`) with `thrust_algebra` and
`thrust_operations` may return `v` -/
def ThrustError [Add K] [Mul K] [Div K] [IntCast K] (O : NumOps K) (epsAbs epsRel aX aDxdt : K)
    (x dxdt err : List K) (dt v : K) : Prop :=
  ThrustNormInf O (thrustRelErrorLoop O epsAbs epsRel aX (aDxdt * O.abs dt) err x dxdt) v

/-! ## Matrices as states -/

/-- `ublas::norm_inf( m )` of a matrix, which is used by `vector_space_norm_inf< ublas::matrix >`
(`OI/util/ublas_wrapper.hpp:53-63`): the largest sum of the absolute values in a row (ublas is not part of the
repository). -/
def ublasMatrixNormInf [Add K] [IntCast K] (O : NumOps K) (rows : List (List K)) : K :=
  normInf O (lit 0) (rows.map fun r => r.foldl (fun s v => s + O.abs v) (lit 0))

end Verif
