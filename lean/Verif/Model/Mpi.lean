import Verif.Model.ControlledRk

/-!
# Steppers with `mpi_state`: one process per node

`OI` abbreviates `/repo/include/boost/numeric/odeint`.  All nodes execute the same program, each with its own part of the state.  `for_eachN` and
`copy` work on the local part (`OI/external/mpi/mpi_nested_algebra.hpp:35-43`, `OI/external/mpi/mpi_state.hpp:79-90`); the nodes communicate in
collective operations only: `all_reduce` in `norm_inf`, and whatever the system function of the user does, here `all_gather`.

A node is a program that stops at every collective operation until its result is known.  It is modelled as a function of the results known so far:
`Port.replies` are the results of its next collective operations; if a further one is called, the program stops there and `Port.waiting` is what
it contributes.

Simplifications: the states have been resized before (`same_size` of `mpi_state` is a collective operation as well,
`OI/external/mpi/mpi_state.hpp:55-62`, called by all nodes in the same order); there is no communication but collective operations, and all nodes
of `MPI_COMM_WORLD` take part in them (`mpiXerr` below shows that a smaller communicator is not respected).
-/

namespace Verif
variable {K V : Type}

/-! ## Communicators -/

/-- `mpi_state< std::vector< K > >` (`OI/external/mpi/mpi_state.hpp:38-52`): the local data, and the members of the communicator -/
structure MpiState (K : Type) where
  data : List K
  world : List ℕ

/-- `mpi_state()` (`OI/external/mpi/mpi_state.hpp:47`): a default constructed `boost::mpi::communicator` is `MPI_COMM_WORLD`, with all processes -/
def MpiState.default (processes : List ℕ) : MpiState K := ⟨[], processes⟩

/-- `resize_impl< mpi_state >::resize` (`OI/external/mpi/mpi_state.hpp:66-74`): the local data is resized -/
def MpiState.resize [IntCast K] (x y : MpiState K) : MpiState K :=
  { x with data := x.data.take y.data.length ++ List.replicate (y.data.length - x.data.length) (lit 0) }

/-- The member `m_xerr` of a controlled stepper (default constructed) after it has been resized for the state `x`
(`OI/stepper/controlled_runge_kutta.hpp:486-490,516`). -/
def mpiXerr [IntCast K] (processes : List ℕ) (x : MpiState K) : MpiState K := (MpiState.default processes).resize x

/-! ## Collective operations -/

/-- What a node contributes to a collective operation: a number to `all_reduce` with `maximum`, data to `all_gather`. -/
inductive Msg (K : Type) where
  | num (a : K)
  | data (l : List K)

/-- the number contributed to `all_reduce` -/
def Msg.num? : Msg K → Option K
  | .num a => some a
  | .data _ => none

/-- the data contributed to `all_gather` -/
def Msg.data? : Msg K → Option (List K)
  | .num _ => none
  | .data l => some l

/-- The result of a collective operation. -/
inductive Reply (K : Type) where
  | num (a : K)
  | data (l : List (List K))

/-- What a node sees of the communicator. -/
structure Port (K : Type) where
  replies : List (Reply K)
  waiting : Option (Msg K)

/-- A collective operation.  (The exception only stops the program, nothing catches it.) -/
def collective (c : Msg K) : M (Port K) (Reply K) := fun p =>
  match p.replies with
  | [] => .err (.user 0) ⟨[], some c⟩
  | r :: rs => .ok r ⟨rs, p.waiting⟩

/-- `boost::mpi::all_reduce( world , value , maximum )` -/
def allReduce (v : K) : M (Port K) K := do
  match ← collective (.num v) with
  | .num a => pure a
  | .data _ => M.ub

/-- `boost::mpi::all_gather( world , local data )` -/
def allGather (l : List K) : M (Port K) (List (List K)) := do
  match ← collective (.data l) with
  | .num _ => M.ub
  | .data g => pure g

/-- The result of a collective operation from the contributions of the nodes, in the order of their ranks; `none` if the nodes call different
operations. -/
def mpiCombine (O : NumOps K) : List (Msg K) → Option (Reply K)
  | [] => none
  | .num a :: l => (l.mapM Msg.num?).map fun bs => .num (bs.foldl O.max a)
  | .data a :: l => (l.mapM Msg.data?).map fun bs => .data (a :: bs)

/-- `m_error_checker.error( m_stepper.algebra() , in , dxdt , m_xerr.m_v , dt )` on one node (`OI/stepper/controlled_runge_kutta.hpp:79-91` with
`mpi_nested_algebra::norm_inf`, `OI/external/mpi/mpi_nested_algebra.hpp:45-53`): `P.checker` computes the weighted errors and the norm of the local
part, `all_reduce` the maximum over all nodes. -/
def mpiCallChecker (P : CtrlParams K V) (inp dxdt xerr : Loc) (dt : K) : StepM K V (Port K) K := fun h =>
  let r := P.checker.error (h.state inp) (h.state dxdt) (h.state xerr) dt
  match allReduce r.2 h.world with
  | .ok v w => .ok v ((h.set xerr r.1).withWorld w)
  | .err e w => .err e ((h.set xerr r.1).withWorld w)
  | .ub => .ub
  | .div => .div

variable [Add K]

/-- `try_step( sys , in , dxdt , t , out , dt )` on one node (`OI/stepper/controlled_runge_kutta.hpp:411-441`) -/
def mpiTryStep4 (P : CtrlParams K V) (impl : ErrStepImpl K V (Port K)) (sys : Sys K V (Port K)) (inp dxdt : Loc) (t : K) (out : Loc)
    (dt : K) : StepM K V (Port K) (TryOut K) := do
  if !P.adjuster.checkStepSizeLimit dt then
    return ⟨false, t, P.adjuster.maxDt⟩
  doStep8 impl sys inp dxdt t out dt mXerr
  let maxRelErr ← mpiCallChecker P inp dxdt mXerr dt
  return decide' P t dt maxRelErr

/-- `try_step( sys , x , t , dt )` on one node (`OI/stepper/controlled_runge_kutta.hpp:262-266,337-347,477-484`) -/
def mpiTryStep1 (P : CtrlParams K V) (impl : ErrStepImpl K V (Port K)) (sys : Sys K V (Port K)) (x : Loc) (t dt : K) :
    StepM K V (Port K) (TryOut K) := do
  callSys sys x mCtrlDxdt t
  let res ← mpiTryStep4 P impl sys x mCtrlDxdt t mXnew dt
  if res.success then copyTo mXnew x
  return res

/-- FSAL: `try_step( sys , in , dxdt_in , t , out , dxdt_out , dt )` on one node (`OI/stepper/controlled_runge_kutta.hpp:752-783`) -/
def mpiFsalTry4 (P : CtrlParams K V) (impl : FsalErrImpl K V (Port K)) (sys : Sys K V (Port K)) (inp dxdtIn : Loc) (t : K)
    (out dxdtOut : Loc) (dt : K) : StepM K V (Port K) (TryOut K) := do
  if !P.adjuster.checkStepSizeLimit dt then
    return ⟨false, t, P.adjuster.maxDt⟩
  fsalStep8 impl sys inp dxdtIn t out dxdtOut dt mXerr
  let maxRelErr ← mpiCallChecker P inp dxdtIn mXerr dt
  return decide' P t dt maxRelErr

/-- FSAL: `try_step( sys , x , t , dt )` on one node (`OI/stepper/controlled_runge_kutta.hpp:616-620,713-725,814-820,895-903`) -/
def mpiFsalTry1 (P : CtrlParams K V) (impl : FsalErrImpl K V (Port K)) (resized : Bool) (sys : Sys K V (Port K)) (x : Loc) (t dt : K) :
    StepM K V (Port K) (TryOut K) := do
  if resized || (← getFlag mCtrlFirst) then fsalCtrlInitialize sys x t
  let res ← mpiFsalTry4 P impl sys x mCtrlDxdt t mXnew mDxdtNew dt
  if res.success then
    copyTo mXnew x
    copyTo mDxdtNew mCtrlDxdt
  return res

end Verif
