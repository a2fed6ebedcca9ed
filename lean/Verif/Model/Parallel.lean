import Verif.Model.Algebra

/-!
# The OpenMP and MPI algebras, and splitting of states

`#pragma omp parallel for` distributes the iterations of a loop over threads in an unspecified way and runs
the threads concurrently.  Every iteration is a task here, with its own program counter and values read; a
schedule is a list of tasks, each entry executes the next instruction of that task.  Every distribution of the
iterations over any number of threads and every interleaving of the threads is such a schedule.  The
interleavings are sequentially consistent; `Props/Parallel` proves that no two iterations access the same
component, so C++ guarantees this.
-/

namespace Verif
variable {ι K : Type}

/-- Memory, and per task the number of instructions executed and the values read. -/
structure ParState (ι K : Type) where
  mem : Mem ι K
  pc : ℕ → ℕ
  regs : ℕ → List K

/-- Task `i` executes its next instruction (nothing if it is finished). -/
def parStep [DecidableEq ι] (prog : ℕ → List (Instr ι K)) (i : ℕ) (s : ParState ι K) :
    Option (ParState ι K) :=
  match (prog i)[s.pc i]? with
  | none => some s
  | some ins => do
      let r ← ins.exec (s.mem, s.regs i)
      some ⟨r.1, Function.update s.pc i (s.pc i + 1), Function.update s.regs i r.2⟩

/-- Execute a schedule. -/
def runSchedule [DecidableEq ι] (prog : ℕ → List (Instr ι K)) :
    List ℕ → ParState ι K → Option (ParState ι K)
  | [], s => some s
  | i :: is, s => parStep prog i s >>= runSchedule prog is

/-- The start of a parallel loop. -/
def ParState.start (m : Mem ι K) : ParState ι K := ⟨m, fun _ => 0, fun _ => []⟩

/-- Iteration `i` of the parallel loop in `openmp_range_algebra::for_eachN`
(`OI/external/openmp/openmp_range_algebra.hpp:38-251`): `op( beg0[i] , beg1[i] , ... )` for `i < len`, where
`len` is the size of the first range. -/
def ompRangeTask (op : List (Action K)) (len : ℕ) (ss : List ι) (i : ℕ) : List (Instr ι K) :=
  if i < len then callInstrs op (ss.map fun c => (c, i)) else []

/-- Iteration `i` of the parallel loop in `openmp_nested_algebra< range_algebra >::for_eachN`
(`OI/external/openmp/openmp_nested_algebra.hpp:38-255`): `InnerAlgebra::for_eachN( beg0[i] , beg1[i] , ... , op )`.
Sub-state `i` of the nested state `c` is the container `(c, i)`; `size` is the size of the first argument's
sub-state. -/
def ompNestedTask (op : List (Action K)) (len : ℕ) (size : ℕ → ℕ) (ss : List ι) (i : ℕ) :
    List (Instr (ι × ℕ) K) :=
  if i < len then (List.range (size i)).flatMap (fun j => callInstrs op (ss.map fun c => ((c, i), j))) else []

/-- The reduction `parallel for reduction( max : init )` of `openmp_range_algebra::norm_inf`
(`OI/external/openmp/openmp_range_algebra.hpp:254-267`): every thread starts with the smallest number `low` and
handles the iterations in its list; the threads' results are combined with `init = 0` in the order in which the
threads finish. -/
def ompNormInf [IntCast K] (O : NumOps K) (low : K) (x : ℕ → K) (threads : List (List ℕ)) : K :=
  (threads.map fun is => is.foldl (fun a i => O.max a (O.abs (x i))) low).foldl O.max (lit 0)

/-- `openmp_nested_algebra::norm_inf` (`OI/external/openmp/openmp_nested_algebra.hpp:259-272`), the sub-states
being `x 0`, `x 1`, ... -/
def ompNestedNormInf [IntCast K] (O : NumOps K) (low : K) (x : ℕ → List K) (threads : List (List ℕ)) : K :=
  (threads.map fun is => is.foldl (fun a i => O.max a (normInf O (lit 0) (x i))) low).foldl O.max (lit 0)

/-- `mpi_nested_algebra::norm_inf` (`OI/external/mpi/mpi_nested_algebra.hpp:45-53`): the maxima of the local norms,
combined by `all_reduce`; `parts` are the local states in the order in which they are combined. -/
def mpiNormInf [IntCast K] (O : NumOps K) : List (List K) → K
  | [] => lit 0
  | p :: ps => (ps.map (normInf O (lit 0))).foldl O.max (normInf O (lit 0) p)

/-! ## Splitting -/

/-- subtraction of `std::size_t` values (64 bits) -/
def sizeSub (a b : ℕ) : ℕ := (a + 2 ^ 64 - b) % 2 ^ 64

/-- conversion of a `std::size_t` to `std::ptrdiff_t` (64 bits, two's complement) -/
def toPtrdiff (a : ℕ) : ℤ := if a < 2 ^ 63 then a else a - 2 ^ 64

/-- `detail::split_offsets( total_length , index , parts )` (`OI/util/split_adaptor.hpp:33-48`): begin and end of
sub-range `index`. -/
def splitOffsets (total index parts : ℕ) : ℕ × ℕ :=
  let slice := total / parts
  let partial' := total % parts
  let lo := min index partial'
  let hi := (max 0 (toPtrdiff (sizeSub index partial'))).toNat
  let beginOffset := lo * (slice + 1) + hi * slice
  let length := slice + if index < partial' then 1 else 0
  (beginOffset, beginOffset + length)

/-- `make_split_range( rng , index , parts )` (`OI/util/split_adaptor.hpp:59-73`) -/
def splitRange (l : List K) (index parts : ℕ) : List K :=
  let off := splitOffsets l.length index parts
  (l.take off.2).drop off.1

/-- The pieces that `split( from , mpi_state )` scatters from rank 0 (`OI/external/mpi/mpi_vector_state.hpp:44-57`) -/
def mpiSplit (l : List K) (ranks : ℕ) : List (List K) := (List.range ranks).map fun i => splitRange l i ranks

/-- `unsplit( mpi_state , to )` on rank 0 (`OI/external/mpi/mpi_vector_state.hpp:69-86`): the pieces are copied to
the beginning of `to`; `none` if `to` is too small (an assertion, and without assertions undefined behaviour) -/
def mpiUnsplit (pieces : List (List K)) (dst : List K) : Option (List K) :=
  if (pieces.map List.length).sum ≤ dst.length then
    some (pieces.flatten ++ dst.drop (pieces.map List.length).sum)
  else none

/-- `split( from , openmp_state &to )` (`OI/external/openmp/openmp_state.hpp:100-117`); `blocks` is the previous
`to.size()`, `maxThreads` is `omp_get_max_threads()`. -/
def ompSplit (maxThreads : ℕ) (l : List K) (blocks : ℕ) : List (List K) :=
  let n := if blocks = 0 then maxThreads else blocks
  let part := l.length / n
  (List.range n).map fun i =>
    let b := i * part
    let e := b + part
    let e := if i + 1 = n ∨ l.length < e then l.length else e
    (l.take e).drop b

/-- `unsplit( openmp_state from , to )` (`OI/external/openmp/openmp_state.hpp:123-139`): `to` is resized to the total
size, then the parts are copied one after the other. -/
def ompUnsplit (from' : List (List K)) : List K := from'.flatten

end Verif
