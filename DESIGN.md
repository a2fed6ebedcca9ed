# Formal model of odeint-v2: design

All source paths are relative to `/repo/include/boost/numeric/odeint/` unless they start with
another top-level directory of the repository.

## 1. Method

The C++ sources are modelled function by function as Lean 4 definitions under
`lean/Verif/Model/`.  Small specifications a reader needs in order to understand a theorem are in
`lean/Verif/Spec/`; helper lemmas are in `lean/Verif/Lemmas/`; the property theorems are in
`lean/Verif/Props/`.  Every property theorem has, next to it, a non-vacuity `example` (or a named
witness) showing that its hypotheses are met by a concrete non-trivial case.

### 1.1 Outcomes and loops
A C++ call is modelled in the monad `M W α := W → Res W α`.  `W` is everything shared by reference
(the observer's log, a step checker); `Res` is `ok value world | err exception world | ub | div`
(normal return, exception together with the world at the throw, undefined behaviour, divergence).
`while` loops are modelled by `whileM`, the unbounded loop (least fixed point: `div` iff no number of
iterations suffices).  Theorems are therefore about unbounded executions: no fuel occurs in any
statement.  Objects passed by value (in particular steppers, which the library copies) are explicit
arguments, so the copy semantics of the code is visible.

### 1.2 Time arithmetic
The time type is a record `TimeArith T` of operations (`+`, `-`, `n*dt`, `<`, `<=`, `0`,
`numeric_limits::epsilon`) *without laws*.  Theorems that quantify over an arbitrary
`TimeArith` hold for IEEE floating point as well, whatever the rounding does.  Theorems about *where*
a grid ends need order laws; they are stated for `TimeArith.exact`, exact arithmetic in a linearly
ordered field with an arbitrary tolerance `eps >= 0`.  Where rounding itself breaks a property, a
concrete rounded arithmetic (round-to-nearest-even with a 53 bit significand on the rationals) is used
for the counterexample.

### 1.3 State arithmetic
States are elements of a module over a field where algebraic laws are needed (order, symplecticity,
exactness), arbitrary types with uninterpreted operations where they are not (aliasing, FSAL caching,
double buffering), and lists of components where the element-wise algebras themselves are the subject.

## 2. Plan per property

| id | what is modelled | how it is proved |
|----|------------------|------------------|
| C01 | `detail::integrate_n_steps(stepper_tag)` | induction on n; equality with a specification trajectory; arbitrary `TimeArith` |
| C02 | `detail::integrate_const(stepper_tag)`, `less_eq_with_sign` | loop invariant for an arbitrary `TimeArith`; end-point characterisation + termination in exact Archimedean arithmetic |
| C03 | `detail::integrate_adaptive(stepper_tag)` incl. the stepper copy | reuse of C02 plus case analysis of the last step |
| C04 | `detail::integrate_adaptive(controlled)` over an abstract controlled stepper contract | loop invariant over all accept/reject histories |
| C05 | `failed_step_checker`, the retry loop | loop invariant on the counter, exact characterisation of the throwing case |
| C06 | `max_step_checker`, `checked_stepper`, `checked_observer` | simulation between checked and unchecked runs; counter invariant |
| C07 | controlled `integrate_const` / `integrate_n_steps` | induction over the grid, inner run = model of `integrate_adaptive` |
| C08 | basic and controlled `integrate_times` | induction over the list of times with inner loop invariant |
| C09 | dense `integrate_times` | loop invariant over an abstract dense-output contract |
| C10 | dense `integrate_const` | false as stated: counterexample runs; partial theorem for what does hold |
| C11 | dense `integrate_n_steps` | false for dt<0: counterexample; forward direction proved |
| C12 | dense `integrate_adaptive` | loop invariant over the dense-output contract |
| C13 | all comparison helpers, integrate loops | simulation under negation of the time axis |
| C14 | `less_with_sign`, `less_eq_with_sign`, `min_abs`, `max_abs` | ordered-field arithmetic |
| C15 | the iterator `increment` functions and constructors | simulation between "iterate until end" and the observer log |
| C16 | `observer_collection`, observer calls in all loops | non-interference simulation |
| C17 | `controlled_runge_kutta::try_step` overloads | case analysis; contract theorem that feeds C04/C07/C08 |
| C18, C19 | `default_step_adjuster` over the reals (`rpow`) | real analysis inequalities; counterexample for order >= 7 |
| C20 | `check_step_size_limit`, `decrease/increase_step`, `min_abs` | case analysis; counterexample for opposite signs |
| C21 | `default_error_checker::error`, `rel_error`, `norm_inf` over lists | induction on the list |
| C22 | `rosenbrock4_controller::try_step` | real analysis; controller-memory invariant |
| C23 | `bulirsch_stoer`: all overloads, tables with explicit bounds, the break/retry logic | state machine invariant over all error histories; a try is related to an extrapolation step |
| C24 | `bulirsch_stoer_dense_out`: tables, retry loop | invariant over all histories after one `initialize`; counterexamples (second `initialize`, backwards) |
| C25 | `pid_step_adjuster` | bounds of arctan |
| C26 | `default_order_adjuster`, `adaptive_adams_coefficients` bookkeeping | state machine invariant |
| C27 | stepper bodies over a store of named locations (aliasing) | symbolic execution in the store, all aliasing cases |
| C28 | `adams_bashforth::do_step` over the same store | counterexample; partial theorem for out-of-place/initialised |
| C29 | FSAL base class | invariant over call sequences |
| C30 | `generic_rk_algorithm` | induction over stages |
| C31, C32 | tableaux; steppers on a normed space | Butcher series: elementary differentials, all rooted trees up to the order, Taylor's theorem |
| C33 | `calc_state` of euler/dopri5/rosenbrock4 | polynomial identities |
| C34 | `dense_output_runge_kutta` double buffering | invariant over histories |
| C35 | `rotating_buffer` | refinement to "list of last N values" |
| C36 | `adams_bashforth(_moulton)` | refinement to the textbook recursion |
| C37 | coefficient tables | exactness on polynomials via the binomial basis |
| C38, C39 | symplectic base class, `velocity_verlet` | composition of shears |
| C40 | `extrapolate` | Neville/Aitken induction |
| C41 | `modified_midpoint` | induction on the number of sub-steps |
| C42 | `implicit_euler` incl. the repeated in-place factorisation | linear algebra |
| C43, C44 | `for_each`, `norm_inf`, OpenMP loops | induction on length; permutation of updates |
| C45 | `split_offsets`, `split`, `unsplit` | arithmetic; induction over parts |
| C46 | resizer policies | invariant over call sequences |
| C47, C48 | RK steppers on linear systems / under linear maps | equivariance induction over stages; relational theorem over call sequences |
| C49 | exceptions thrown by the system function in every stepper | case analysis of the recipes; counterexamples for steppers with memory |
| C50 | error norms and step control with NaN | extended reals with a NaN; counterexamples |
| C51 | symplectic steppers backwards in time | inverse of a composition of shears |
| C52, C53 | `rosenbrock4` on linear and time dependent problems | exact rational arithmetic with the tabulated decimals; counterexample for `d4` |
| C54 | the iterators over dense output steppers | same contract as C09-C12 |
| C55 | `extrapolation_stepper` | asymptotic expansion of the modified midpoint rule in even powers, Neville elimination |
| C56 | `adaptive_adams_bashforth_moulton` and the controlled version | divided differences: the coefficient recursion computes the integrals of the Newton polynomials; refinement to a textbook PECE method over every history |
| C57 | `pid_step_adjuster` as a function of the history of tries | invariant relating the stored errors to the history |
| C59, C60 | values, order and interpolation of `bulirsch_stoer_dense_out` | reduction to the extrapolation theorem; counterexample run evaluated in the kernel |
| C61 | `implicit_euler` when a matrix is singular | the `exit(0)` of the code is an outcome of the model; counterexample |
| C62 | `initialize_controlled` | refinement to the PECE start; counterexample run |
| C63 | integrate functions composed with the models of the steppers | uniform local error from the pointwise order by compactness, Gronwall-like error recursion |
| C64 | `integrate_adaptive` and the memory of the stepper it is given | counterexample family; partial theorem for steppers without memory |
| C65 | the four integrate functions composed with `controlled_runge_kutta`, default checker and adjuster, with or without `max_dt` | a-priori bound on all states, termination measure, chain invariant, and the error recursion of C63 |
| C66 | `integrate_adaptive` and `integrate_times` composed with `dense_output_runge_kutta` of `runge_kutta_dopri5`, with or without `max_dt` | loop invariants over the abstract contract `DenseFn`, refinement of the stepper to its abstract machine, uniform order of the continuous extension, error recursion of C63 |
| C67 | `integrate_const` with a `max_step_checker`, for the three kinds of steppers and with the branch for `null_observer` | simulation between the checked and the unobserved loop; counterexample runs |
| C68 | `integrate` and the factories `make_controlled` and `make_dense_output` for the Runge-Kutta steppers, composed with C65 and C66 | instances of C65 and C66 with the constructor arguments the factories pass, and the meaning of the error test (C21) |
| C69 | the three integrate functions composed with `adams_bashforth` and `adams_bashforth_moulton`, any Runge-Kutta initialising stepper and the defaults | error recursion for methods with memory, truncation errors from C37 and a compactness argument; exact runs for `x' = 1` and `x' = 5 t^4` as counterexamples |
| C70 | the integrate functions composed with `extrapolation_stepper` and with `controlled_runge_kutta< extrapolation_stepper >` | the contract of `try_step`, the extrapolated value as a Runge-Kutta method whose order is C54's, the argument of C65; an exact run of `x' = 1` as counterexample for the plain stepper |
| C71 | the same stepper and integrate functions, run on a number type whose operations are rounded (`Fl`); the rounding is any function within `u ( 1 + \|y\| )` of its argument, overflow excluded | the stepper recipes are executed on the rounded and on the exact numbers side by side, which gives a local error `O( u )`; then the stability of the one-step method (C65). The hypotheses are met by binary floating point numbers with `m` digits (`binaryFormat_accurate`) |
| C72 | the integrate functions composed with `rknDoStep`, `rknDoStepMom`, `verletDoStep` on pairs of user objects (`pairStepperObject`) | a theory of B-series with coloured trees for splitting methods (`split_order`): only trees with alternating colours matter; the conditions for the coefficients in the code are checked one by one; convergence by the argument of C63; an explicit run for a velocity dependent acceleration |
| C73 | `integrateConstBasic`, `integrateAdaptiveBasic`, `integrateAdaptiveControlled`, `integrateAdaptiveDense`, `integrateTimesBasic`, `integrateTimesControlled`, `integrateTimesDense` with times `Fl` of a floating point format (`Rounding.Floating`: relative error, monotone, idempotent, Sterbenz); the stepper is any one that keeps its step sizes above a bound | the distance to the end time decreases by at least half a step size per step (monotony of rounding); the last steps are exact by Sterbenz; the number of retries by the lower bound; binary formats with `m` digits are shown to satisfy the laws (`binaryFormat_floating`). The dense output case is refuted by computing the roundings of one call |
| C74 | all integrate functions with exact times and tolerance `eps` resp. `c * eps`; arbitrary steppers and their counterparts in the new units (`rescaleStep`, …); `doStep3` of the explicit steppers with the rescaled system function (`rescaleSys`) | the simulation theorems of C13 with the relation `t' = c t + b`; for the steppers equality of the recipes; the negation with the theorem of C02 |
| C75 | `Model/IterIntegrate`: the integrate functions of `iterator/integrate` as loops over the ranges of `Model/Iterator`, with counting | simulation of the two loops (rotation of `while( c ) { f; g } f` into `while( !stop ) { f; if( c ) g else stop }`); the differences by evaluating concrete runs |
| C76 | nothing new: `Model/Integrate`, `Model/Symplectic`, `Model/Verlet`, `Model/RungeKutta`, `Model/ControlledRk`, `Model/DenseRk`, `Model/Multistep`, `Model/BulirschStoer`, `Model/Rosenbrock` | `Lemmas/Conserved`: a partial-correctness logic (`Res.Keeps`) for the integrate functions with an invariant about state, memory of the stepper and record of the observer; then every stepper keeps the invariant: stages of linear methods stay in the kernel of the functional, kicks and drifts keep a bilinear form; dense output and the Adams methods through their machines on values (C34, C36); in bulirsch_stoer every entry of the extrapolation table has the value of the start state, because the weights of the extrapolation add up to one; the stages of rosenbrock4 solve `c g - J g = b`, and applying the functional gives `c l(g) = 0` |
| C77 | `Model/External`: `mkl_operations` as BLAS loops on a memory of containers, `rel_error` and `norm_inf` of thrust and Boost.Compute (a reduction is any tree over any permutation), the matrix norm of ublas | the loops of BLAS by the same invariants as C43; induction over reduction trees; the error check component by component; concrete differences |
| C78 | `Model/ImplicitEulerMtl4`: one step with the iterative solver as a parameter | algebra with matrices; `Lu.Solves` of C42 for the comparison with `implicit_euler`; `x' = x²` as counterexample |
| C79 | `Model/Gsl`: allocation, freeing and the special member functions of `state_wrapper< gsl_vector * >`, iterators with a stride | invariant "every object has its own vector" over all histories; copies and assignments are shown to be undefined in every state of the invariant |
| C80 | the integrate functions of C01–C04 with a fixed step size, and a stepper handed over by reference (`Spec/Resume`) | a loop can be split at a stronger condition (`whileM_two`); simulation between the rest of the first loop and the second call |
| C81 | `ieStep` of C42 and C61 as a stepper object of the integrate functions (`Spec/ImplicitEulerRun`); the elimination of ublas (`ublasLu`) | the repeated factorization keeps the matrix near `-1` for a bounded number of Newton steps; the residual contracts, so that this number is enough; the local errors are accumulated as long as the states stay near the solution |
| C82 | `rosDoStep6`, `rosInterpolant` of C22 | the stages are expanded in powers of the step size as sums over trees, where the Jacobian adds a new root (`Lemmas/RosSeries`); the weights of all trees with at most four nodes are computed exactly (`Lemmas/RosWeights`) and compared with those of the solution; bounds of the elementary differentials by the derivatives of the right-hand side |
| C83 | all steppers and integrate functions of the model; "uses only" is an extensional notion: two system functions that agree on the interval cannot be told apart by the call (`Spec/Interval`) | congruence of the loops under an invariant that keeps every trial inside the interval; forward direction of the step sizes from the adjuster; a run in which `integrate_const` with dense output steps beyond the end |
| C84 | all explicit, FSAL, multistep, symplectic and Rosenbrock steppers, `bulirsch_stoer`, `try_step`, the dense output of explicit steppers, of `runge_kutta_dopri5` and of `rosenbrock4`, the integrate functions for all three kinds of stepper; the world is the counter, nothing else is known of the system function (`Spec/Calls`) | a calculus of costs: `TakesCalls` composes additively; loops by induction; for steppers with memory a mode, its costs and its successor |
| C85 | the steppers of the model inside the integrate functions, twice, in two coordinate systems (`Spec/Coordinates`) | relational: the runs of the steppers are related (all members except the one for the error, which the error checker overwrites with dimensionless numbers), simulations lift this to the integrate functions; for the default error checker the two sets of weighted errors are equal |
| C86 | the integrate functions with the caller's variable, the world and the record of the observer as one state (`Spec/Crash`); steppers run on a heap whose cell 0 is the caller's variable | a logic with a postcondition for exceptions (`Res.Leaves`): at every exception the variable is the last observed state and is reached by a path of complete steps; paths are deterministic, so the second call continues the path |
| C87 | `implicit_euler` and `implicit_euler_mtl4` as stepper objects (`Spec/ImplicitEulerRun`, `Spec/ImplicitStable`) | a call that returns is a sequence of steps (`Lemmas/StepTrace`); every step solves the equation of the implicit Euler method up to a defect (C42, C78); the inner product of the difference of two such equations with the difference of the results gives the contraction |
| C88 | the symplectic steppers and `velocity_verlet` as stepper objects inside the integrate functions; a call as a map from start states to end states (`Spec/RunMaps`) | number, times and sizes of the steps do not depend on the states (`runs_by`), so the returned state is a composition of steps; symplectic, volume preserving and bijective maps are closed under composition (C38, C39); steps undone by steps of the opposite size |
| C89 | the explicit steppers and `runge_kutta_dopri5` for a system and for the system with perturbations (`Spec/Variational`) | one Runge-Kutta formula for both (`recipe_formula`); the stages of the second are the derivatives of the stages of the first, by induction and the chain rule; then along the orbit |
| C90 | `rosDoStep1` of C22 and C82 as a stepper object of the integrate functions (`Spec/RosenbrockRun`) | the stages divided by the step size are a smooth function of state and step size (`Lemmas/RosFlow`), hence the expansion of C82 holds uniformly along the solution and the step is stable near it; errors accumulate as in C81 (`converges_on_of_steps`) |
| C91 | the plain and the controlled Runge-Kutta steppers with `mpi_state`, one program per node that stops at every collective operation (`Model/Mpi`); a network of nodes that run asynchronously (`Spec/Mpi`) | the nodes follow the sequential program: there is one list of collective operations (contributions of all nodes and result) such that every node, given the first `k` results, either stops at operation `k` with its contribution or ends like the sequential program; preserved by sequences, branches and loops (`Lemmas/Mpi`, `Lemmas/MpiRun`, `Lemmas/MpiPlain`); such programs always end in the network, by an invariant on what has been sent and received; the maximum of local norms is the global norm |
| C92 | communicators of `mpi_state` and of the temporary states of the stepper (`Model/Mpi`) | holds for the communicator of all processes; counterexample: two processes, one of them with a state of its own |
| C93 | `rosTry4` of C22 with the error measure for `d` components as a controlled stepper of the integrate functions (`Spec/RosenbrockControl`) | an accepted step of any size leaves the controller in a state in which a step with a small error is not followed by a smaller one: the previous step size is at most five times as long and the remembered error at least 0.01 (`Lemmas/RosControl`); controllers with such a memory do not get stuck (`Lemmas/TryMem`, used for the other controlled steppers too); the steps stay in a tube around the solution, where the matrix is regular and the error estimate bounded |
| C94 | `bsTry1` of C23 in real arithmetic as a controlled stepper of the integrate functions, with an arbitrary automaton for the resizer (`Spec/BulirschStoerRun`) | the factor of `calc_h_opt` is at least 1/20, at most 0.92 for an error above one, and at least one for an error up to 1/5 (`Lemmas/BsReal`); hence a rejected step shrinks, and small steps are accepted and not followed by smaller ones (`Lemmas/BsTryReal`, `Lemmas/BsTryMem`); the global error of a family of methods of order at least 4, one of which is chosen in each step |
| C95 | the explicit steppers, `runge_kutta_dopri5`, the Adams methods, the symplectic steppers, `controlled_runge_kutta` (also with `runge_kutta_dopri5`), `rosenbrock4` and its controller as stepper objects of the integrate functions, with two unrelated memories or, where a stepper keeps derivatives or a step size, with memories that are mirrored or new (`Spec/Reversed`) | the reversed system is a rescaling of time by -1 (C74), under which a step with error estimate is the same; error checker and step adjuster commute with the negation of the step size and never propose zero (`Props/ReversedControl`, for Rosenbrock methods `Props/ReversedRos`; for steppers that keep a derivative, and symplectic ones, `Props/ReversedFsal`; for Adams methods `Props/ReversedAdams`); then the simulation of the integrate functions (`Lemmas/IntegrateSim`, `Lemmas/Mirror`). Negation for `bulirsch_stoer` |

No listed property was found to be inexpressible.  (C58 was dropped from the list while the properties were revised; the other ids were kept.)

## 3. Trusted base
* The kernel of Lean 4.33.0, and the definitions of Mathlib that occur in statements (real numbers, norms, derivatives, `ContDiff`, big-O, integrals,
  polynomials, matrices, lists).
* Axioms: every theorem depends on at most `propext`, `Classical.choice` and `Quot.sound`.  There are no other axioms, no `sorry`, and no use of
  compiled evaluation (`native_decide`, `bv_decide`, `implemented_by`).  `decide +kernel` occurs only where a complete finite table is checked (all rooted
  trees up to the order of a stepper, tables of coefficients) or where a single concrete run is evaluated as a counterexample; the kernel does
  the evaluation.
* The faithfulness of the definitions in `lean/Verif/Model/` to the cited C++ lines.  This was checked by reading, and the sensitivity of
  the theorems to the definitions was checked with mutations (section 6).
* The reading of the statements in `lean/Verif/Props/`, with the specifications in `lean/Verif/Spec/`.

## 4. What is modelled

### 4.1 Modelled, by file
| model file | C++ sources | simplifications |
|---|---|---|
| `Prelude/Res`, `Model/TimeArith` | `util/detail/less_with_sign.hpp` | outcomes `ok / err / ub / div`; time arithmetic without laws |
| `Model/Integrate` | `integrate/detail/*.hpp`, `integrate/max_step_checker.hpp`, `check_adapter.hpp`, `observer_collection.hpp`, `null_observer.hpp` | `size_t`/`int` counters do not overflow; an observer's effects are effects on a shared world; the dispatching front ends (`integrate_const.hpp` etc.) forward their arguments and are not modelled separately |
| `Model/FrontEnd` | `integrate/integrate.hpp`, `integrate/integrate_const.hpp`, `generation/make_controlled.hpp`, `make_dense_output.hpp`, `generation_controlled_runge_kutta.hpp`, `generation_dense_output_runge_kutta.hpp` | the checker is new and passed by value |
| `Model/IterIntegrate` | `iterator/integrate/detail/*.hpp`, `iterator/integrate/integrate_const.hpp` | `integrate_times` for plain steppers only; `size_t` has 64 bits |
| `Model/Iterator` | `iterator/detail/ode_iterator_base.hpp`, `iterator/impl/*.hpp` | the `boost::iterator_facade` protocol is a pair of functions *increment* and *at end*; the front ends `make_*_range` forward |
| `Model/Heap`, `Model/Algebra` | `algebra/range_algebra.hpp`, `array_algebra.hpp`, `multi_array_algebra.hpp`, `fusion_algebra.hpp` (norm), `detail/for_each.hpp`, `detail/norm_inf.hpp`, `default_operations.hpp`, `util/copy.hpp` | the members and the caller's objects are named locations of one heap, so that arguments may alias; a location has an owner; that the loops compute the heap primitive is a theorem (C43) |
| `Model/RungeKutta`, `Model/Steppers` | `stepper/base/explicit_stepper_base.hpp`, `explicit_error_stepper_base.hpp`, `explicit_error_stepper_fsal_base.hpp`, `detail/generic_rk_*.hpp`, `euler`, `runge_kutta4(_classic)`, `runge_kutta_cash_karp54(_classic)`, `runge_kutta_fehlberg78`, `runge_kutta_dopri5`, `explicit_generic_rk`, `explicit_error_generic_rk` | the fusion-based compile-time loops over stages are loops over lists; coefficients are exact fractions |
| `Model/Midpoint` | `stepper/modified_midpoint.hpp`, `extrapolation_stepper.hpp` | |
| `Model/ControlledRk` | `stepper/controlled_runge_kutta.hpp` (both categories, default checker and adjuster) | the FSAL overload `try_step( sys , in , t , out , dt )` cannot be instantiated in C++ (it calls an overload that does not exist) and is omitted |
| `Model/DenseRk` | `stepper/dense_output_runge_kutta.hpp` (both categories) | the interpolation of a user's stepper is a parameter; euler and dopri5 are instances |
| `Model/Rosenbrock` | `rosenbrock4.hpp`, `rosenbrock4_controller.hpp`, `rosenbrock4_dense_output.hpp` | the ublas LU solver is the parameter `solve`; the decimal coefficients are exact rational numbers; the rounding order within `(c*g)/dt` is not represented |
| `Model/ImplicitEuler` | `implicit_euler.hpp` | ublas' `lu_factorize`/`lu_substitute` are a parameter with the contract `Lu.Solves`; one concrete instance `ublasLu` was written from knowledge of ublas, which is not part of the repository; members that are always overwritten are local; `exit(0)` is an outcome |
| `Model/Symplectic` | `symplectic_rkn_stepper_base.hpp`, `symplectic_euler.hpp`, `symplectic_rkn_sb3a_*.hpp`, `velocity_verlet.hpp` | coordinates and momenta have the same type; decimal coefficients are exact |
| `Model/Multistep` | `adams_bashforth.hpp`, `adams_moulton.hpp`, `adams_bashforth_moulton.hpp`, coefficient tables, `detail/rotating_buffer.hpp`, call algebras | |
| `Model/AdaptiveAdams` | `adaptive_adams_bashforth_moulton.hpp`, `controlled_adams_bashforth_moulton.hpp`, `detail/adaptive_adams_coefficients.hpp`, `detail/pid_step_adjuster*.hpp` | rotating buffers are their logical contents (the refinement is C35); an index outside of a buffer or array is undefined behaviour; extended-real arithmetic has one zero |
| `Model/BulirschStoer`, `Model/BulirschStoerDense` | `bulirsch_stoer.hpp`, `bulirsch_stoer_dense_out.hpp` | control members are a record, tables are functions with bounds-checked access; `m_dt_last`, which the constructor leaves unset, is arbitrary; binomial coefficients are exact; the public `try_step` of the dense stepper is modelled inside `do_step`; in the counterexample runs `pow` is a stand-in, stated in the theorem |
| `Model/Resizer` | `util/resizer.hpp`, `resize.hpp`, `same_size.hpp`, and `runge_kutta4_classic` on containers with sizes | a state is a list; using a container of a wrong size is undefined behaviour |
| `Model/Parallel` | `external/openmp/*.hpp`, `external/mpi/mpi_nested_algebra.hpp`, `mpi_vector_state.hpp`, `util/split_adaptor.hpp` | threads interleave single loads and stores of a sequentially consistent memory (justified by the race-freedom theorems); `split_offsets` in 64-bit arithmetic |
| `Model/Mpi` | `external/mpi/mpi_state.hpp`, `mpi_nested_algebra.hpp` with `stepper/controlled_runge_kutta.hpp` | a node is a function of the results of its collective operations; states are resized before; collective operations are the only communication |
| `Model/External` | `external/mkl/mkl_operations.hpp`, `external/thrust/thrust_operations.hpp` (`rel_error`), `thrust_algebra.hpp` (norm), `external/compute/compute_operations.hpp` (`rel_error`), `util/ublas_wrapper.hpp` (norm of matrices) | BLAS routines are loops with the obvious elementwise operation; a parallel reduction is any binary tree over any permutation of the elements |
| `Model/ImplicitEulerMtl4` | `external/mtl4/implicit_euler_mtl4.hpp` | the iterative solver is a parameter |
| `Model/Gsl` | `external/gsl/gsl_wrapper.hpp` | addresses are never reused; elements of new vectors are uninitialized; GSL's error handler is not modelled |

### 4.2 Kinds of arithmetic
A theorem about *which* calls happen, about aliasing, caching, histories, bounds and exceptions quantifies over every arithmetic: number operations
are parameters without laws, so floating point is included.  Theorems about end points of grids use exact arithmetic in an Archimedean ordered
field with a tolerance.  Theorems about orders, convergence and step sizes use exact real arithmetic (`realOps`), or the extended reals with a NaN
(`XR.ops`) where overflow and NaN matter.  Rounding errors are modelled in C71, C73
only (`Model/Rounding`): every operation is rounded by an arbitrary function of bounded error; signed zeros, infinities and NaN are not part of it.

C63, C65, C66, C68 and C69 put the pieces together: the stepper object (with its own heap, which is copied when the library copies the stepper), the system function
with its own world, a recording observer and the integrate functions, in exact real arithmetic.

### 4.3 Not modelled
* The adapters to other libraries in `external/`, except for the parts named in 4.1: blaze, eigen, nt2, vexcl and viennacl, the linear combinations of
  thrust and Boost.Compute (formulas without a loop of their own), and resizing of these containers.  They need code that is not in the repository.
* Template metaprogramming: stepper categories and tag dispatch, algebra/operations dispatchers, `is_resizeable` traits, `boost::ref` unwrapping, units,
  overloads that only forward, the factories in `generation/` for rosenbrock4 and Adams (those for Runge-Kutta steppers are modelled for C68).
* Memory management, move semantics, `state_wrapper` (a location), thread safety of a single stepper object.
* `mpi_state`: point-to-point communication in system functions, and dense output steppers and `bulirsch_stoer` (C91); the MPI library itself.
* Performance, integer overflow of step counters, floating point rounding outside C71 and C73.

## 5. Properties of the code that turned out to be false
Each of these is a theorem with a concrete run (or family of runs) of the model; the corresponding property is claimed as partial, or its statement
names the exception.

| property | finding | theorem |
|---|---|---|
| C10 | dense `integrate_const` with one interval observes only the start; with an overshooting last step the last grid point is wrong | `integrate_const_dense_one_interval`, `integrate_const_dense_overshoot` |
| C11 | dense `integrate_n_steps` backwards in time reports a wrong last state | `integrate_n_steps_dense_backward_wrong` |
| C08, C09 | `integrate_times` with no times dereferences the end iterator; times equal to the first one are handled differently | `integrate_times_empty_ub`, `integrate_times_dense_repeated_start` |
| C15 | `make_times_time_range` with a controlled stepper differs from `integrate_times` | `times_range_controlled_differs` |
| C19 | for orders from 7 on an accepted step may be followed by a shorter one | `increase_step_shrinks` |
| C20 | `max_dt` of the opposite sign turns the direction of integration (three classes) | `try_step_max_dt_flips`, `ros_max_dt_flips`, `bs_max_dt_flips` |
| C23 | `bulirsch_stoer`: in place it computes with overwritten input, a NaN error lets the step grow, tiny steps never grow again | `bs_inplace_wrong`, `bs_nan_error_grows`, `bs_tiny_step_stuck` |
| C24 | `bulirsch_stoer_dense_out`: a second `initialize` leads to an access out of bounds; backwards a rejected step is not reduced and `do_step` never returns | `bsd_reinitialize_out_of_bounds`, `bsd_backward_stuck`, `bsd_backward_never_returns` |
| C25, C57 | `pid_step_adjuster`: a negative `dtmax` accepts everything, backward steps are not limited, NaN and (after suitable histories) any error are accepted | `pid_negative_dtmax`, `pid_backward_unlimited`, `pid_nan_accepted`, `pid_accepts_any_error` |
| C26 | the controlled Adams stepper reads its table out of bounds for `Steps >= 14` | `controlled_adams_table_too_short` |
| C28 | `extrapolation_stepper` in place is wrong, hence also the warm-up of `adams_bashforth` in place | `extrapolation_inplace_wrong`, `adams_inplace_warmup_wrong` |
| C29 | a call with a derivative given by the caller leaves a stale derivative in FSAL steppers | `fsal_stale_cache`, `fsal_ctrl_given_stale` |
| C34 | if the 501st trial of a dense output step is accepted, `do_step` throws after the time has advanced | `dense_late_accept_inconsistent`, `ros_dense_late_accept_inconsistent` |
| C36 | `adams_bashforth_moulton` after a change of the state size uses stale data | `abm_resize_stale` |
| C37 | `adams_moulton<N>::order()` is one too large | `adams_moulton_order_wrong` |
| C39 | `velocity_verlet` with velocity dependent accelerations is not symmetric | `verlet_velocity_dependent` |
| C45 | the blocks of `openmp_state` are not balanced | `openmp_split_unbalanced` |
| C46 | `initially_resizer` and a larger state: access out of bounds | `initially_size_change_ub` |
| C49 | an exception in the system function leaves FSAL, multistep, symplectic and Verlet steppers (or the state) half updated | `dopri5_exception_unsafe`, `adams_exception_unsafe`, `symplectic_exception_unsafe`, `verlet_exception_unsafe` |
| C50 | NaN errors are accepted | `nan_step_accepted`, `norm_inf_ignores_nan` |
| C52 | the coefficient `d4` of `rosenbrock4` has the wrong sign | `ros_time_dependent_wrong`, `ros_weight_d4` |
| C60 | the interpolation of `bulirsch_stoer_dense_out` does not match the states at the ends of the step | `bsd_interpolation_differs_at_ends` |
| C61 | `implicit_euler` ends the program for a regular problem | `implicit_euler_exits` |
| C62 | `initialize_controlled` starts from a wrong history when the other stepper rejects a step | `initialize_controlled_wrong` |
| C64 | `integrate_adaptive` makes the last step with the stepper as it was before the call | `adaptive_last_step_stale` |
| C67 | `integrate_const` with a checker but without observer runs `integrate_adaptive` without the checker: other end state, and possibly an endless loop | `const_checker_observer_end_violated`, `const_checker_observer_hang_violated` |
| C69 | `adams_bashforth<N>`, `N ≥ 2`, with its default initialising stepper has an error of at least `abs(dt)` even for `x' = 1`, because `extrapolation_stepper` is called in place (see C28); `adams_bashforth_moulton<6..8>` with its default `runge_kutta4` reaches only order 5 | `adams_bashforth_default_error`, `adams_bashforth_default_not_second_order`, `adams_bashforth_moulton_default_error`, `adams_bashforth_moulton_default_not_sixth_order` |
| C70 | the integrate functions call `extrapolation_stepper` in place; every step of `x' = 1` is then at least `Order/2` times too long and the integration does not converge | `extrapolation_integration_wrong`, `extrapolation_not_convergent` |
| C72 | `velocity_verlet` passes the velocity to the system function, but that of the start of the step: for accelerations that depend on it a step has order 1 only | `verlet_damped_order_fails` |
| C72 | the decimals of `symplectic_rkn_sb3a_mclachlan` satisfy the conditions for order 3 and 4 only up to rounding in the 20th digit | `sb3a_order_partial` |
| C73 | `integrate_adaptive` with a dense output stepper does not return for some times of type `double`, e.g. from -1.3 to 7 with `dt` = 10: `current_time + ( end_time - current_time )` is rounded to more than `end_time + eps`, so that the last step is never made but prepared again and again | `adaptive_dense_hangs`, `adaptive_dopri5_dense_hangs` |
| C74 | the tolerance of the time comparisons is absolute: `integrate_const` over ten steps of size `2^-56` makes 26 steps; intervals not longer than `2^-52` are not integrated at all | `unit_of_time_matters`, `short_interval_ignored` |
| C75 | in `iterator/integrate`: `integrate_adaptive` with a dense output stepper (and `integrate_const` without observer) does not write the result to `start_state`; `integrate_const` and `integrate_n_steps` with a controlled stepper forget the step size between the intervals, because the reference parameter `dt` of `integrate_adaptive` is not set; `integrate_times` returns the number of intervals; `obs_calls-1` wraps around for an empty range | `iter_adaptive_dense_differs`, `iter_const_front_dense_differs`, `iter_const_controlled_differs`, `iter_times_count_differs`, `iter_const_basic_empty` |
| C77 | `mkl_operations::scale_sumN` overwrites a summand if the output is one of the summands but the first (`euler::do_step( sys , in , dxdt , t , out , dt )` with `out` = `dxdt`); `rel_error` of `thrust_operations` and `compute_operations` has a misplaced parenthesis, `abs( x + a * abs( dxdt ) )`: errors are overestimated without bound for negative states, and underestimated for `a_x` ≠ 1; `thrust_algebra::norm_inf` returns the component with its sign; `vector_space_norm_inf< ublas::matrix >` is the row sum norm | `mkl_scale_sum_alias_wrong`, `thrust_error_rejects`, `thrust_error_accepts`, `thrust_norm_inf_sign`, `thrust_norm_inf_order`, `matrix_norm_differs` |
| C78 | `implicit_euler_mtl4` ignores its tolerance: a step is a single Newton iteration | `mtl4_epsilon_ignored` |
| C79 | the copy constructor of `state_wrapper< gsl_vector * >` frees an uninitialized pointer; there is no assignment operator (double free, leak) | `gsl_copy_ub`, `gsl_assign_double_free`, `gsl_assign_leaks` |
| C80 | the integrate functions copy the stepper: `adams_bashforth` handed over by value starts its history again when an integration is continued | `adams_value_restarts` |
| C83 | `integrate_const` with a dense output stepper evaluates the right-hand side after the end of the integration: from 0 to 1 with dt = 0.3 and zero right-hand side, it is called at the time 1.38 | `integrate_const_dense_outside` |
| C86 | after an exception in `integrate_times` the caller's state lies between two observations, so its time is lost: times 0, 2 with dt = 1 and `euler`, exception in the second step | `times_exception_between` |
| C86 | `integrate_n_steps` with `runge_kutta_dopri5`: if the last evaluation of a step throws, the caller's state is already the new one although it has not been observed | `n_steps_exception_dopri5` |
| C87 | `implicit_euler_mtl4` makes one Newton iteration only and is not stable for nonlinear systems: for the force `-clamp(x,-1,1)` and the step size 10, a step from 2 ends at -8 | `mtl4_not_stable` |
| C88 | `symplectic_euler` is not reversible: integrating forward and back does not return to the start | `integrate_symplectic_euler_not_reverses` |
| C92 | a state distributed over a communicator with fewer processes than `MPI_COMM_WORLD` cannot be integrated: the stepper's temporary states are default constructed, `resize` does not copy the communicator, and the error norm is reduced over all processes: deadlock | `mpi_norm_communicator`, `mpi_subcommunicator_deadlock` |
| C95 | `bulirsch_stoer` compares `work[k] < 0.9 * work[k-1]`, where `work` has the sign of `dt`: backward in time the order is raised when the lower one is cheaper and vice versa. With zero right-hand side, the first step proposes a step size `e` forward and `-2e` backward | `bulirsch_stoer_not_reversed` |

## 6. Tests against wrong programs
`seeded/LOG.jsonl` records edits of the model, each made in a scratch copy the way a realistic bug would change the C++ code, with the theorems
that stopped proving.  Edits that survived led to stronger theorems, which the entries name under `tightened`.
