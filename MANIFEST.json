{
 "claims": [
  {
   "property": "C01",
   "status": "proved",
   "theorems": [
    "Verif.integrate_n_steps_grid",
    "Verif.integrate_n_steps_exception"
   ],
   "note": "for every time arithmetic, stepper and n, including throwing steppers"
  },
  {
   "property": "C02",
   "status": "proved",
   "theorems": [
    "Verif.integrate_const_grid",
    "Verif.integrate_const_exception",
    "Verif.integrate_const_exact"
   ],
   "note": "call sequence for every time arithmetic; end point and termination in exact Archimedean arithmetic"
  },
  {
   "property": "C03",
   "status": "proved",
   "theorems": [
    "Verif.integrate_adaptive_fixed_grid",
    "Verif.integrate_adaptive_fixed_exact"
   ],
   "note": "the last step is made by the stepper as passed in (the library copies it)"
  },
  {
   "property": "C04",
   "status": "proved",
   "theorems": [
    "Verif.integrate_adaptive_controlled_spec",
    "Verif.integrate_adaptive_controlled_exception",
    "Verif.integrate_adaptive_controlled_terminates"
   ],
   "note": "all accept/reject histories of contract-abiding steppers; exact arithmetic"
  },
  {
   "property": "C05",
   "status": "proved",
   "theorems": [
    "Verif.retry_returns_first_success",
    "Verif.retry_throws_after_limit",
    "Verif.retry_never_diverges"
   ],
   "note": "retry loop of integrate_adaptive"
  },
  {
   "property": "C06",
   "status": "proved",
   "theorems": [
    "Verif.checked_basic",
    "Verif.checked_dense",
    "Verif.checked_controlled_times",
    "Verif.checked_controlled"
   ],
   "note": "for integrate_n_steps/const with controlled steppers: steppers whose internal state does not influence their results (the library copies the stepper in the unchecked version only)"
  },
  {
   "property": "C07",
   "status": "proved",
   "theorems": [
    "Verif.integrate_n_steps_controlled_grid",
    "Verif.integrate_n_steps_controlled_failure",
    "Verif.integrate_n_steps_controlled_cases",
    "Verif.integrate_const_controlled_grid",
    "Verif.integrate_const_controlled_failure",
    "Verif.integrate_const_controlled_returns",
    "Verif.integrate_n_steps_controlled_exact",
    "Verif.integrate_const_controlled_exact"
   ],
   "note": "call sequence for every time arithmetic and try_step; accepted-step paths and end point in exact arithmetic"
  },
  {
   "property": "C08",
   "status": "proved",
   "theorems": [
    "Verif.integrate_times_basic_spec",
    "Verif.integrate_times_controlled_spec",
    "Verif.integrate_times_controlled_exception",
    "Verif.integrate_times_controlled_terminates",
    "Verif.integrate_times_empty_ub"
   ],
   "note": "exact arithmetic, monotone times; the observer receives the requested times themselves"
  },
  {
   "property": "C09",
   "status": "proved",
   "theorems": [
    "Verif.integrate_times_dense_spec",
    "Verif.integrate_times_dense_exception",
    "Verif.integrate_times_dense_terminates",
    "Verif.integrate_times_dense_empty",
    "Verif.integrate_times_dense_repeated_start"
   ],
   "note": "times within eps of the first one are evaluated on the freshly initialised stepper"
  },
  {
   "property": "C10",
   "status": "partial",
   "theorems": [
    "Verif.integrate_const_dense_partial",
    "Verif.integrate_const_dense_fixed_step",
    "Verif.integrate_const_dense_exception",
    "Verif.integrate_const_dense_terminates",
    "Verif.integrate_const_dense_one_interval",
    "Verif.integrate_const_dense_overshoot"
   ],
   "note": "the full property is false of the code: two counterexample theorems; proved in full for fixed-step dense output with at least two intervals, and for all steppers except for the last state and for grid points beyond t1"
  },
  {
   "property": "C11",
   "status": "partial",
   "theorems": [
    "Verif.integrate_n_steps_dense_forward",
    "Verif.integrate_n_steps_dense_partial",
    "Verif.integrate_n_steps_dense_exception",
    "Verif.integrate_n_steps_dense_terminates",
    "Verif.integrate_n_steps_dense_backward_wrong"
   ],
   "note": "proved in full forward in time; backward in time the last observed state is wrong, counterexample theorem"
  },
  {
   "property": "C12",
   "status": "proved",
   "theorems": [
    "Verif.integrate_adaptive_dense_spec",
    "Verif.integrate_adaptive_dense_exception",
    "Verif.integrate_adaptive_dense_terminates"
   ],
   "note": "exact arithmetic, contract-abiding dense output steppers"
  },
  {
   "property": "C13",
   "status": "proved",
   "theorems": [
    "Verif.mirror_basic",
    "Verif.mirror_controlled",
    "Verif.mirror_dense",
    "Verif.mirror_dense_times"
   ],
   "note": "all integrate functions except the dense-output integrate_n_steps, which is not mirror symmetric (see C11)"
  },
  {
   "property": "C14",
   "status": "proved",
   "theorems": [
    "Verif.less_with_sign_trichotomy",
    "Verif.less_with_sign_iff",
    "Verif.less_eq_with_sign_eq_not_less",
    "Verif.less_with_sign_neg",
    "Verif.min_abs_max_abs_spec"
   ],
   "note": "exact ordered-field arithmetic, any eps >= 0"
  },
  {
   "property": "C15",
   "status": "proved",
   "theorems": [
    "Verif.const_step_range_eq_integrate",
    "Verif.const_step_range_empty",
    "Verif.n_step_range_eq_integrate",
    "Verif.adaptive_range_eq_integrate",
    "Verif.adaptive_range_empty",
    "Verif.adaptive_range_dense_eq_integrate",
    "Verif.times_range_eq_integrate",
    "Verif.times_range_controlled_differs"
   ],
   "note": "equality of whole programs (all effects, exceptions, non-termination) for every stepper and observer; dense output: exact arithmetic and steps larger than 2 eps; times: exact comparisons; last theorem: counterexample for controlled steppers and make_times_time_range"
  },
  {
   "property": "C16",
   "status": "proved",
   "theorems": [
    "Verif.observer_irrelevant_basic",
    "Verif.observer_irrelevant_controlled",
    "Verif.observer_irrelevant_dense",
    "Verif.null_observer_is_pure",
    "Verif.observer_collection_calls",
    "Verif.observer_collection_exception",
    "Verif.observer_collection_basic",
    "Verif.observer_collection_controlled",
    "Verif.observer_collection_dense"
   ],
   "note": ""
  },
  {
   "property": "C17",
   "status": "proved",
   "theorems": [
    "Verif.try_step_contract",
    "Verif.try_step_dxdt_contract",
    "Verif.try_step_out_contract",
    "Verif.try_step_out_dxdt_contract",
    "Verif.try_step_result",
    "Verif.try_step_overloads_agree",
    "Verif.fsal_try_step_contract",
    "Verif.fsal_try_step_out_contract",
    "Verif.fsal_trial_derivative",
    "Verif.try_step_success_iff"
   ],
   "note": "for every arithmetic, stepper, error checker and step adjuster; the out-of-place overloads need out different from in; the 5-argument out-of-place FSAL overload cannot be instantiated in C++ and is not modelled"
  },
  {
   "property": "C18",
   "status": "proved",
   "theorems": [
    "Verif.decrease_step_formula",
    "Verif.decrease_step_bounds",
    "Verif.rejections_shrink",
    "Verif.try_step_dt_bounds"
   ],
   "note": "real arithmetic"
  },
  {
   "property": "C19",
   "status": "partial",
   "theorems": [
    "Verif.increase_step_formula",
    "Verif.increase_step_bounds_partial",
    "Verif.increase_step_shrinks",
    "Verif.try_step_dt_bounds"
   ],
   "note": "real arithmetic; the lower bound |dt| holds for stepper orders up to 6 and is refuted for every order from 7 on"
  },
  {
   "property": "C20",
   "status": "partial",
   "theorems": [
    "Verif.check_limit_iff",
    "Verif.try_step_max_dt_partial",
    "Verif.try_step_max_dt_flips",
    "Verif.ros_max_dt_partial",
    "Verif.ros_max_dt_flips",
    "Verif.bulirsch_stoer_step_size1",
    "Verif.bulirsch_stoer_step_size2",
    "Verif.bulirsch_stoer_step_size3",
    "Verif.bulirsch_stoer_step_size4",
    "Verif.bs_max_dt_flips",
    "Verif.bulirsch_stoer_dense_step_size_partial"
   ],
   "note": "controlled_runge_kutta, rosenbrock4_controller, bulirsch_stoer, and bulirsch_stoer_dense_out forwards in time; when max_dt and dt point in opposite directions the claim is refuted"
  },
  {
   "property": "C21",
   "status": "proved",
   "theorems": [
    "Verif.error_checker_norm",
    "Verif.error_checker_le_one",
    "Verif.error_checker_perm",
    "Verif.try_step_success_iff"
   ],
   "note": "real arithmetic, any number of components"
  },
  {
   "property": "C22",
   "status": "proved",
   "theorems": [
    "Verif.ros_do_step",
    "Verif.ros_try_step",
    "Verif.ros_try_result",
    "Verif.ros_accept_iff",
    "Verif.ros_error_rms",
    "Verif.ros_error_tolerance",
    "Verif.ros_try_step_bounds",
    "Verif.ros_no_growth_after_rejection",
    "Verif.ros_step_equations",
    "Verif.ros_try_witness"
   ],
   "note": "step and decision for every arithmetic, bounds in real arithmetic; the linear solver is a parameter"
  },
  {
   "property": "C23",
   "status": "proved",
   "theorems": [
    "Verif.bulirsch_stoer_in_bounds",
    "Verif.bulirsch_stoer_try1",
    "Verif.bulirsch_stoer_try2",
    "Verif.bulirsch_stoer_try4",
    "Verif.bulirsch_stoer_step_size1",
    "Verif.bulirsch_stoer_step_size2",
    "Verif.bulirsch_stoer_step_size3",
    "Verif.bulirsch_stoer_step_size4",
    "Verif.bulirsch_stoer_no_growth_after_rejection",
    "Verif.bs_tiny_step_stuck",
    "Verif.bs_nan_error_grows",
    "Verif.bs_max_dt_flips",
    "Verif.bs_inplace_wrong"
   ],
   "note": "tables and order for every number type, every aliasing and every history; values: a try is a step of extrapolation_stepper of some order with error below 1; step size in extended real arithmetic, with the exceptions the statement names proved to occur"
  },
  {
   "property": "C24",
   "status": "partial",
   "theorems": [
    "Verif.bulirsch_stoer_dense_step",
    "Verif.bulirsch_stoer_dense_in_bounds_partial",
    "Verif.bulirsch_stoer_dense_step_size_partial",
    "Verif.bsd_reinitialize_out_of_bounds",
    "Verif.bsd_backward_stuck",
    "Verif.bsd_backward_never_returns"
   ],
   "note": "bounds: every history of do_step and calc_state after one initialize if the first step does not throw; a second initialize is proved to lead out of bounds. Step size: forwards; backwards it is proved that it is not reduced"
  },
  {
   "property": "C25",
   "status": "proved",
   "theorems": [
    "Verif.pid_step_bounds",
    "Verif.controlled_adams_try_step",
    "Verif.pid_backward_unlimited",
    "Verif.pid_negative_dtmax"
   ],
   "note": "extended real numbers with NaN; any function pow; the boundary cases are stated as theorems: dtmax does not limit backward steps, and a negative dtmax forces acceptance"
  },
  {
   "property": "C26",
   "status": "proved",
   "theorems": [
    "Verif.adaptive_adams_in_bounds",
    "Verif.controlled_adams_in_bounds",
    "Verif.aabmInitialize_order",
    "Verif.controlled_adams_table_too_short"
   ],
   "note": "the uncontrolled stepper for every Steps, the controlled one for Steps <= 13; for Steps >= 14 the access out of bounds is proved"
  },
  {
   "property": "C27",
   "status": "proved",
   "theorems": [
    "Verif.do_step_inplace_agrees",
    "Verif.do_step_dxdt_agrees",
    "Verif.do_step_err_inplace_agrees",
    "Verif.dopri5_inplace_agrees"
   ],
   "note": "for every arithmetic (no algebraic law used), also when the system function throws"
  },
  {
   "property": "C28",
   "status": "partial",
   "theorems": [
    "Verif.extrapolation_outofplace_partial",
    "Verif.extrapolation_io_partial",
    "Verif.extrapolation_inplace_wrong",
    "Verif.adams_inplace_agrees_partial",
    "Verif.adams_inplace_warmup_wrong"
   ],
   "note": "the in-place overload of extrapolation_stepper is wrong, and so is the warm-up of adams_bashforth in place with that (default) initialising stepper: counterexample theorems; the out-of-place overload, do_step_impl_io and adams_bashforth with any other initialising stepper, or after the warm-up, are proved right"
  },
  {
   "property": "C29",
   "status": "partial",
   "theorems": [
    "Verif.fsal_transparent",
    "Verif.fsal_cache_valid",
    "Verif.fsal_evaluations",
    "Verif.fsal_stale_cache",
    "Verif.fsal_ctrl_transparent",
    "Verif.fsal_ctrl_cache_valid",
    "Verif.fsal_ctrl_given_stale"
   ],
   "note": "every history of calls of runge_kutta_dopri5 and of controlled_runge_kutta over it; a successful call of the controlled stepper with a caller-supplied derivative leaves the cached derivative stale (refuted part)"
  },
  {
   "property": "C30",
   "status": "proved",
   "theorems": [
    "Verif.generic_rk_step",
    "Verif.generic_error_rk_step",
    "Verif.rk4_classic_agrees",
    "Verif.cash_karp_classic_agrees"
   ],
   "note": "any number of stages"
  },
  {
   "property": "C31",
   "status": "proved",
   "theorems": [
    "Verif.explicit_steppers_order",
    "Verif.dopri5_order"
   ],
   "note": "every complete normed space, every p times continuously differentiable right-hand side; modified_midpoint included; exact arithmetic"
  },
  {
   "property": "C32",
   "status": "proved",
   "theorems": [
    "Verif.error_steppers_order",
    "Verif.dopri5_error_order"
   ],
   "note": "exact arithmetic"
  },
  {
   "property": "C33",
   "status": "proved",
   "theorems": [
    "Verif.euler_dense_continuous",
    "Verif.dopri5_interpolant_begin",
    "Verif.dopri5_interpolant_end",
    "Verif.dopri5_dense_continuous",
    "Verif.dopri5_dense_smooth",
    "Verif.dopri5_dense_order_conditions",
    "Verif.dopri5_dense_order",
    "Verif.ros_interpolant_ends"
   ],
   "note": "exact arithmetic; every history of calls that ends after an accepted step"
  },
  {
   "property": "C34",
   "status": "partial",
   "theorems": [
    "Verif.dense_do_step",
    "Verif.dense_initialize",
    "Verif.euler_dense_history",
    "Verif.dopri_dense_history",
    "Verif.dopri_dense_step_ok",
    "Verif.dopri_dense_step_err",
    "Verif.dopri_dense_valid",
    "Verif.dopri_dense_fresh",
    "Verif.dense_late_accept_inconsistent",
    "Verif.ros_dense_do_step",
    "Verif.ros_dense_history",
    "Verif.ros_dense_step_spec",
    "Verif.ros_dense_fresh",
    "Verif.ros_dense_late_accept_inconsistent"
   ],
   "note": "every arithmetic and every history of calls, also with exceptions; refuted when the 501st trial of one step is accepted: do_step throws after the time has advanced (dense_output_runge_kutta and rosenbrock4_dense_output)"
  },
  {
   "property": "C35",
   "status": "proved",
   "theorems": [
    "Verif.rotating_buffer_window",
    "Verif.rotating_buffer_front"
   ],
   "note": "every buffer size and sequence of operations; no access outside of the storage"
  },
  {
   "property": "C36",
   "status": "partial",
   "theorems": [
    "Verif.adams_bashforth_history",
    "Verif.adams_bashforth_run",
    "Verif.adams_bashforth_initialize_run",
    "Verif.adams_bashforth_moulton_history_partial",
    "Verif.adams_bashforth_moulton_run",
    "Verif.adams_bashforth_moulton_initialize_run",
    "Verif.adams_fresh",
    "Verif.abm_resize_stale"
   ],
   "note": "every number of steps, every coefficient array, every arithmetic, every history of do_step/initialize/reset, with exceptions; refuted for adams_bashforth_moulton when the state size changes while it is running (counterexample theorem)"
  },
  {
   "property": "C37",
   "status": "partial",
   "theorems": [
    "Verif.adams_bashforth_exact",
    "Verif.adams_bashforth_run_exact",
    "Verif.adams_moulton_exact_partial",
    "Verif.adams_bashforth_moulton_run_exact",
    "Verif.adams_moulton_order_wrong"
   ],
   "note": "proved for adams_bashforth and adams_bashforth_moulton; adams_moulton<N>::order() reports N+1, its formula has order N: counterexample for each N"
  },
  {
   "property": "C38",
   "status": "proved",
   "theorems": [
    "Verif.symplectic_composition",
    "Verif.symplectic_composition_momentum",
    "Verif.symplectic_bijective",
    "Verif.symplectic_step",
    "Verif.symplectic_volume",
    "Verif.symplectic_consistent",
    "Verif.symplectic_exact_constant",
    "Verif.symplectic_do_step"
   ],
   "note": "any number of stages and coefficients; symplectic form and volume preserved in every real inner product / normed space"
  },
  {
   "property": "C39",
   "status": "proved",
   "theorems": [
    "Verif.verlet_explicit",
    "Verif.verlet_history",
    "Verif.verlet_evaluations",
    "Verif.verlet_composition",
    "Verif.verlet_reversible",
    "Verif.verlet_run_reversible",
    "Verif.verlet_symplectic",
    "Verif.verlet_exact_constant",
    "Verif.verlet_velocity_dependent"
   ],
   "note": "histories of all calls; the restriction to velocity-independent accelerations is needed (counterexample)"
  },
  {
   "property": "C40",
   "status": "proved",
   "theorems": [
    "Verif.neville_eliminates",
    "Verif.neville_reproduces",
    "Verif.extrapolation_value",
    "Verif.extrapolation_eliminates"
   ],
   "note": "the tableau recursion for arbitrary interval numbers, and extrapolation_stepper::do_step itself (out of place); bulirsch_stoer contains the same extrapolate function"
  },
  {
   "property": "C41",
   "status": "proved",
   "theorems": [
    "Verif.midpoint_gragg",
    "Verif.midpoint_evaluations",
    "Verif.midpoint_trapezoid",
    "Verif.midpoint_exact_linear_time",
    "Verif.midpoint_even_powers"
   ],
   "note": ""
  },
  {
   "property": "C42",
   "status": "proved",
   "theorems": [
    "Verif.implicit_euler_linear",
    "Verif.implicit_euler_converged",
    "Verif.implicit_euler_scalar",
    "Verif.implicit_euler_residual",
    "Verif.implicit_euler_a_stable"
   ],
   "note": "the linear solver of ublas is a parameter with a contract; the program may be ended by exit(0), see C61"
  },
  {
   "property": "C43",
   "status": "proved",
   "theorems": [
    "Verif.range_for_each_in_order",
    "Verif.array_for_each_in_order",
    "Verif.array_eq_range",
    "Verif.scale_sum_for_each",
    "Verif.swap_for_each",
    "Verif.rel_error_for_each",
    "Verif.copy_range",
    "Verif.norm_inf_spec",
    "Verif.fusion_norm_inf_eq",
    "Verif.linTo_refined",
    "Verif.copyTo_refined",
    "Verif.linSwap_refined",
    "Verif.scale_sum_short_ub"
   ],
   "note": "all lengths, all aliasing patterns, any arithmetic; the loops refine the primitives of the steppers' model; containers shorter than the first one are undefined behaviour"
  },
  {
   "property": "C44",
   "status": "proved",
   "theorems": [
    "Verif.openmp_range_for_each",
    "Verif.openmp_range_threads",
    "Verif.openmp_nested_for_each",
    "Verif.openmp_nested_threads",
    "Verif.openmp_race_free",
    "Verif.openmp_nested_race_free",
    "Verif.openmp_norm_inf",
    "Verif.openmp_nested_norm_inf",
    "Verif.mpi_norm_inf"
   ],
   "note": "every functor, number of threads, distribution and interleaving of single loads and stores; race freedom proved, so that sequential consistency is justified"
  },
  {
   "property": "C45",
   "status": "proved",
   "theorems": [
    "Verif.split_offsets_partition",
    "Verif.split_offsets_balanced",
    "Verif.mpi_unsplit_split",
    "Verif.mpi_split_balanced",
    "Verif.openmp_unsplit_split",
    "Verif.openmp_split_blocks",
    "Verif.openmp_split_lengths",
    "Verif.split_for_each_unsplit",
    "Verif.openmp_split_unbalanced"
   ],
   "note": "64-bit size arithmetic included; computing on the parts and unsplitting is computing on the whole; the openmp_state split itself is not balanced (theorem)"
  },
  {
   "property": "C46",
   "status": "proved",
   "theorems": [
    "Verif.resize_members_spec",
    "Verif.resize_not_resizeable",
    "Verif.always_step",
    "Verif.initially_step",
    "Verif.never_step",
    "Verif.adjust_size_spec",
    "Verif.never_sizes_fixed",
    "Verif.initially_sizes_fixed",
    "Verif.adjust_then_never",
    "Verif.initially_history",
    "Verif.initially_size_change_ub"
   ],
   "note": "resizers with any list of members; histories of calls of runge_kutta4_classic on containers with sizes"
  },
  {
   "property": "C47",
   "status": "proved",
   "theorems": [
    "Verif.rk_stability_polynomial",
    "Verif.rk4_stability_polynomial",
    "Verif.dopri5_stability_polynomial",
    "Verif.linear_invariant_step",
    "Verif.linear_invariant_dopri5",
    "Verif.linear_invariant_adams",
    "Verif.linear_invariant_adams_moulton",
    "Verif.linear_invariant_adams_initialize",
    "Verif.linear_invariant_adams_moulton_initialize",
    "Verif.extrapolation_linear_order"
   ],
   "note": "exact arithmetic over the reals; extrapolation_stepper out of place (in place is refuted under C28)"
  },
  {
   "property": "C48",
   "status": "proved",
   "theorems": [
    "Verif.steps_commute",
    "Verif.controlled_steps_commute",
    "Verif.linear_linHom",
    "Verif.reindex_linHom",
    "Verif.uncoupled_systems"
   ],
   "note": "arbitrary sequences of calls to all explicit, FSAL, extrapolation and Adams steppers; also controlled and dense output steppers when the error checkers agree; reindex_linHom holds in any arithmetic"
  },
  {
   "property": "C49",
   "status": "partial",
   "theorems": [
    "Verif.do_step_exception_safe_partial",
    "Verif.dopri5_exception_unsafe",
    "Verif.adams_exception_unsafe",
    "Verif.symplectic_exception_unsafe",
    "Verif.verlet_exception_unsafe",
    "Verif.try_step_contract",
    "Verif.fsal_try_step_contract"
   ],
   "note": "proved for the explicit steppers without FSAL and for controlled_runge_kutta over all of them, FSAL or not; counterexamples for runge_kutta_dopri5 and for adams_bashforth (its history moves before the exception), the symplectic steppers and velocity_verlet (coordinates moved, momenta not)"
  },
  {
   "property": "C50",
   "status": "partial",
   "theorems": [
    "Verif.normInf_nan",
    "Verif.nan_error_is_zero",
    "Verif.nan_step_accepted",
    "Verif.nan_accepted_witness",
    "Verif.pid_nan_accepted",
    "Verif.norm_inf_ignores_nan"
   ],
   "note": "refuted: the theorems show that an all-NaN error estimate is accepted, for every state size and every arithmetic with IEEE NaN rules"
  },
  {
   "property": "C51",
   "status": "proved",
   "theorems": [
    "Verif.symplectic_reversible",
    "Verif.sb3a_reversible",
    "Verif.symplectic_euler_not_reversible",
    "Verif.symplectic_inplace_agrees",
    "Verif.symplectic_momentum_version"
   ],
   "note": "exact arithmetic for reversibility, any arithmetic for the agreement of the overloads"
  },
  {
   "property": "C52",
   "status": "partial",
   "theorems": [
    "Verif.ros_quadrature",
    "Verif.ros_weights",
    "Verif.ros_polynomial_partial",
    "Verif.ros_time_dependent_wrong",
    "Verif.ros_weight_d4"
   ],
   "note": "refuted for the linear part: the coefficient d4 has the wrong sign"
  },
  {
   "property": "C53",
   "status": "proved",
   "theorems": [
    "Verif.ros_linear",
    "Verif.ros_stability",
    "Verif.ros_a_stable",
    "Verif.ros_decay"
   ],
   "note": "exact arithmetic with the tabulated coefficients as decimal numbers; the linear solver is assumed to be exact"
  },
  {
   "property": "C54",
   "status": "proved",
   "theorems": [
    "Verif.n_step_range_dense_spec",
    "Verif.const_step_range_dense_spec",
    "Verif.const_step_range_dense_empty",
    "Verif.times_range_dense_spec"
   ],
   "note": "exact arithmetic; stated for runs that return"
  },
  {
   "property": "C55",
   "status": "proved",
   "theorems": [
    "Verif.extrapolation_order",
    "Verif.extrapolation_error_order",
    "Verif.extrapolation_linear_order",
    "Verif.extrapolation_quadrature",
    "Verif.extrapolation_evaluations"
   ],
   "note": "in == out is excluded: see extrapolation_inplace_wrong (C28)"
  },
  {
   "property": "C56",
   "status": "proved",
   "theorems": [
    "Verif.adaptive_adams_pece",
    "Verif.adaptive_adams_initialize_pece",
    "Verif.controlled_adams_pece",
    "Verif.adams_pece_exact",
    "Verif.adamsPec_one"
   ],
   "note": "exact real arithmetic; every history of calls before; the controlled stepper for Steps <= 13 and every step adjuster; the start by initialize_controlled is C62"
  },
  {
   "property": "C57",
   "status": "proved",
   "theorems": [
    "Verif.pid_accept_iff",
    "Verif.pid_startup_accept_iff",
    "Verif.pid_history",
    "Verif.pid_after_rejection",
    "Verif.pid_filter_history",
    "Verif.pid_stationary",
    "Verif.pid_accepts_any_error",
    "Verif.pid_nan_accepted",
    "Verif.pid_negative_dtmax"
   ],
   "note": "real arithmetic with exact pow and atan; NaN in the extended reals"
  },
  {
   "property": "C59",
   "status": "proved",
   "theorems": [
    "Verif.bulirsch_stoer_dense_values",
    "Verif.bulirsch_stoer_dense_do_step",
    "Verif.bulirsch_stoer_dense_order",
    "Verif.bulirsch_stoer_dense_error_order"
   ],
   "note": "exact arithmetic; every state of the members that the bounds theorem of C24 shows to be reachable"
  },
  {
   "property": "C60",
   "status": "partial",
   "theorems": [
    "Verif.bsd_interpolation_ends_partial",
    "Verif.bsd_interpolation_differs_at_ends"
   ],
   "note": "refuted by a concrete run; holds for constant right-hand sides"
  },
  {
   "property": "C61",
   "status": "partial",
   "theorems": [
    "Verif.implicit_euler_regular_partial",
    "Verif.implicit_euler_exits"
   ],
   "note": "holds for one equation; refuted for two by a concrete run with the algorithm of ublas"
  },
  {
   "property": "C62",
   "status": "partial",
   "theorems": [
    "Verif.initialize_controlled_partial",
    "Verif.initialize_controlled_wrong"
   ],
   "note": "refuted by a concrete run; holds if the other stepper accepts every step and keeps the step size"
  },
  {
   "property": "C63",
   "status": "proved",
   "theorems": [
    "Verif.explicit_steppers_converge",
    "Verif.dopri5_converges"
   ],
   "note": "exact real arithmetic; any complete normed space as state space; the controlled and dense steppers are not covered by this property"
  },
  {
   "property": "C64",
   "status": "partial",
   "theorems": [
    "Verif.adaptive_memory_partial",
    "Verif.adaptive_last_step_stale"
   ],
   "note": "refuted for runge_kutta_dopri5 by a family of runs whose error is not O(dt^2); holds for the steppers without memory"
  },
  {
   "property": "C65",
   "status": "proved",
   "theorems": [
    "Verif.controlled_steppers_integrate",
    "Verif.controlled_dopri5_integrates",
    "Verif.oscillator_cash_karp"
   ],
   "note": "the default checker on states with d components, exact real arithmetic"
  },
  {
   "property": "C66",
   "status": "proved",
   "theorems": [
    "Verif.dense_dopri5_integrates",
    "Verif.oscillator_dense"
   ],
   "note": "the default checker and adjuster with or without a step limit, states with d components, exact real arithmetic, times compared without a tolerance"
  },
  {
   "property": "C67",
   "status": "partial",
   "theorems": [
    "Verif.const_checker_observer_partial",
    "Verif.const_checker_observer_end_violated",
    "Verif.const_checker_observer_hang_violated"
   ],
   "note": "refuted by two concrete runs: without observer the end state is another one, and a call hangs although a checker is passed; holds for plain steppers when the last step ends at the end time"
  },
  {
   "property": "C68",
   "status": "proved",
   "theorems": [
    "Verif.integrate_reliable",
    "Verif.make_controlled_reliable",
    "Verif.make_controlled_dopri5_reliable",
    "Verif.make_dense_output_times_reliable",
    "Verif.checker_le_one_iff"
   ],
   "note": "exact real arithmetic, states with d components; constructors and integrate functions composed; make_dense_output with integrate_times"
  },
  {
   "property": "C69",
   "status": "partial",
   "theorems": [
    "Verif.adams_bashforth_converges_partial",
    "Verif.adams_bashforth_moulton_converges_partial",
    "Verif.adams_bashforth_moulton_default_converges",
    "Verif.adams_bashforth_default_error",
    "Verif.adams_bashforth_default_not_second_order",
    "Verif.adams_bashforth_moulton_default_error",
    "Verif.adams_bashforth_moulton_default_not_sixth_order"
   ],
   "note": "order min(N,p+1) for every Runge-Kutta initialising stepper; refuted for the default initialising stepper of adams_bashforth<2..8> and of adams_bashforth_moulton<6..8>; exact real arithmetic"
  },
  {
   "property": "C70",
   "status": "partial",
   "theorems": [
    "Verif.controlled_extrapolation_integrates",
    "Verif.extrapolation_integration_wrong",
    "Verif.extrapolation_not_convergent",
    "Verif.oscillator_extrapolation",
    "Verif.extrapolation_try_step_contract"
   ],
   "note": "proved for the controlled stepper, all even orders from 4; refuted for the plain stepper, whose in-place do_step is wrong; exact real arithmetic"
  },
  {
   "property": "C71",
   "status": "proved",
   "theorems": [
    "Verif.explicit_steppers_converge_with_rounding",
    "Verif.dopri5_converges_with_rounding",
    "Verif.ramp_rk4",
    "Verif.binaryFormat_accurate"
   ],
   "note": "for integrate_n_steps and integrate_const; overflow excluded by the hypothesis that rounding is accurate up to C/u; integrate_adaptive and the controlled steppers are not covered"
  },
  {
   "property": "C72",
   "status": "proved",
   "theorems": [
    "Verif.symplectic_euler_order",
    "Verif.sb3a_m4_order",
    "Verif.sb3a_order_partial",
    "Verif.verlet_order",
    "Verif.symplectic_steppers_converge",
    "Verif.symplectic_momentum_steppers_converge",
    "Verif.verlet_converges",
    "Verif.verlet_damped_order_fails"
   ],
   "note": "the nominal order 4 of symplectic_rkn_sb3a_mclachlan holds for exact coefficients within 4e-20 of the decimals in the code; with the decimals themselves order 2 is proved, as the statement says"
  },
  {
   "property": "C73",
   "status": "partial",
   "theorems": [
    "Verif.adaptive_controlled_ends",
    "Verif.const_basic_ends",
    "Verif.adaptive_basic_ends",
    "Verif.times_basic_ends",
    "Verif.times_controlled_ends",
    "Verif.times_dense_ends",
    "Verif.adaptive_dense_ends_partial",
    "Verif.adaptive_dense_hangs",
    "Verif.adaptive_dopri5_dense_hangs",
    "Verif.binaryFormat_floating"
   ],
   "note": "proved for basic and controlled steppers and for integrate_times; for integrate_adaptive with dense output steppers proved for times up to 1/2 (double), refuted for larger times by a call that never returns"
  },
  {
   "property": "C74",
   "status": "partial",
   "theorems": [
    "Verif.rescale_basic",
    "Verif.rescale_controlled",
    "Verif.rescale_dense",
    "Verif.explicit_steppers_rescale",
    "Verif.unit_of_time_matters",
    "Verif.short_interval_ignored"
   ],
   "note": "proved if the tolerance of the comparisons is rescaled too; with the fixed tolerance of the code refuted"
  },
  {
   "property": "C75",
   "status": "partial",
   "theorems": [
    "Verif.iter_const_basic_eq",
    "Verif.iter_adaptive_basic_eq",
    "Verif.iter_n_steps_basic_eq",
    "Verif.iter_adaptive_controlled_eq",
    "Verif.iter_times_basic_eq",
    "Verif.iter_const_dense_eq",
    "Verif.iter_n_steps_dense_eq",
    "Verif.iter_adaptive_dense_partial",
    "Verif.iter_adaptive_dense_differs",
    "Verif.iter_const_front_dense_differs",
    "Verif.iter_const_controlled_differs",
    "Verif.iter_times_count_differs",
    "Verif.iter_const_basic_empty",
    "Verif.iter_adaptive_controlled_empty"
   ],
   "note": "proved for plain steppers (except for the number returned by integrate_times) and for integrate_adaptive with controlled steppers; the other cases are refuted by concrete runs"
  },
  {
   "property": "C76",
   "status": "proved",
   "theorems": [
    "Verif.symplectic_conserves",
    "Verif.symplectic_mom_conserves",
    "Verif.symplectic_momentum_conserved",
    "Verif.verlet_conserves",
    "Verif.explicit_linear_conserved",
    "Verif.dopri5_linear_conserved",
    "Verif.controlled_linear_conserved",
    "Verif.controlled_dopri5_linear_conserved",
    "Verif.dense_dopri5_linear_conserved",
    "Verif.adams_bashforth_linear_conserved",
    "Verif.adams_bashforth_moulton_linear_conserved",
    "Verif.bulirsch_stoer_linear_conserved",
    "Verif.rosenbrock_linear_conserved",
    "Verif.controlled_rosenbrock_linear_conserved",
    "Verif.dense_rosenbrock_linear_conserved"
   ],
   "note": "for every time arithmetic, exact arithmetic in the states; with dense output the conditions on the times exclude the runs in which calc_state is called before the first step (C10, C34); the Adams methods with an initialising stepper that can be used in place (C28); the Rosenbrock methods with a Jacobian and a linear solver that respect the law (exact ones do: Solves.conserves); bulirsch_stoer_dense_out is not included"
  },
  {
   "property": "C77",
   "status": "partial",
   "theorems": [
    "Verif.mkl_scale_sum_eq",
    "Verif.mkl_scale_sum_alias_wrong",
    "Verif.thrust_norm_inf_abs",
    "Verif.thrust_norm_inf_nonneg",
    "Verif.thrust_norm_inf_exists",
    "Verif.thrust_norm_inf_sign",
    "Verif.thrust_norm_inf_order",
    "Verif.thrust_error_eq",
    "Verif.thrust_error_stricter",
    "Verif.thrust_error_rejects",
    "Verif.thrust_error_accepts",
    "Verif.matrix_norm_bounds",
    "Verif.matrix_norm_differs"
   ],
   "note": "the equality is proved under the conditions named in the theorems and refuted without them: aliasing with MKL, negative components with thrust and Boost.Compute, matrices of ublas"
  },
  {
   "property": "C78",
   "status": "partial",
   "theorems": [
    "Verif.mtl4_linear",
    "Verif.mtl4_linear_exact",
    "Verif.mtl4_linear_accuracy",
    "Verif.mtl4_first_newton",
    "Verif.mtl4_epsilon_ignored"
   ],
   "note": "proved for systems that are linear in the state; refuted for others: the step is one Newton iteration and the tolerance has no effect"
  },
  {
   "property": "C79",
   "status": "partial",
   "theorems": [
    "Verif.gsl_history_partial",
    "Verif.gsl_no_leak_partial",
    "Verif.gsl_copy_ub",
    "Verif.gsl_assign_double_free",
    "Verif.gsl_assign_leaks",
    "Verif.gsl_for_each"
   ],
   "note": "proved for histories without copies; every copy constructor call is undefined behaviour, and an assignment makes the destruction undefined"
  },
  {
   "property": "C80",
   "status": "proved",
   "theorems": [
    "Verif.n_steps_resume",
    "Verif.const_resume",
    "Verif.adaptive_resume",
    "Verif.times_resume",
    "Verif.reference_memoryless",
    "Verif.explicit_memoryless",
    "Verif.adams_value_restarts"
   ],
   "note": "exact arithmetic of times, fixed step size; for steppers without memory and for steppers handed over by reference; adams_value_restarts shows why the reference is needed for adams_bashforth"
  },
  {
   "property": "C81",
   "status": "proved",
   "theorems": [
    "Verif.implicit_euler_converges",
    "Verif.implicit_euler_converges_solver",
    "Verif.ublasLu_near"
   ],
   "note": "real arithmetic; for small steps only: C61 shows that the Newton iteration, which factorizes the same matrix again and again, may end the program for larger ones"
  },
  {
   "property": "C82",
   "status": "proved",
   "theorems": [
    "Verif.rosenbrock4_order",
    "Verif.ros_nonlinear_order",
    "Verif.ros_dense_order"
   ],
   "note": "real arithmetic; the Jacobian is exact and the linear systems are solved exactly; systems that depend on the time are excluded because of C52; the tabulated coefficients fulfil the order conditions only up to 1e-15, hence the first term of the bounds"
  },
  {
   "property": "C83",
   "status": "partial",
   "theorems": [
    "Verif.do_step_inside",
    "Verif.do_step_error_inside",
    "Verif.do_step_dopri5_inside",
    "Verif.do_step_extrapolation_inside",
    "Verif.do_step_adams_inside",
    "Verif.do_step_rosenbrock_inside",
    "Verif.try_step_bulirsch_stoer_inside",
    "Verif.do_step_verlet_inside",
    "Verif.do_step_implicit_euler_inside",
    "Verif.try_step_inside",
    "Verif.integrate_inside",
    "Verif.stepper_object_inside",
    "Verif.integrate_controlled_inside",
    "Verif.integrate_controlled_dopri5_inside",
    "Verif.integrate_dense_inside_partial",
    "Verif.default_control_sensible",
    "Verif.integrate_tries_inside",
    "Verif.integrate_rosenbrock_inside",
    "Verif.integrate_bulirsch_stoer_inside",
    "Verif.integrate_dense_rosenbrock_inside_partial",
    "Verif.integrate_const_dense_outside"
   ],
   "note": "exact arithmetic; integrate_const with a dense output stepper violates the property (integrate_const_dense_outside, for all tolerances and start states); everything else of the property is proved for the steppers named in the theorems"
  },
  {
   "property": "C84",
   "status": "proved",
   "theorems": [
    "Verif.do_step_calls",
    "Verif.do_step_error_calls",
    "Verif.do_step_dopri5_calls",
    "Verif.do_step_dopri5_calls_dxdt",
    "Verif.do_step_extrapolation_calls",
    "Verif.do_step_rosenbrock_calls",
    "Verif.rosenbrock4_jacobian_calls",
    "Verif.do_step_symplectic_calls",
    "Verif.do_step_verlet_calls",
    "Verif.try_step_calls",
    "Verif.try_step_dopri5_calls",
    "Verif.do_step_adams_bashforth_calls",
    "Verif.do_step_adams_bashforth_moulton_calls",
    "Verif.integrate_calls",
    "Verif.integrate_controlled_calls",
    "Verif.integrate_explicit_calls",
    "Verif.integrate_dopri5_calls",
    "Verif.integrate_adams_calls",
    "Verif.integrate_adaptive_controlled_calls",
    "Verif.integrate_adaptive_controlled_dopri5_calls",
    "Verif.try_step_bulirsch_stoer_calls",
    "Verif.integrate_bulirsch_stoer_calls",
    "Verif.do_step_dense_calls",
    "Verif.do_step_dense_dopri5_calls",
    "Verif.integrate_dense_calls",
    "Verif.integrate_dense_dopri5_calls",
    "Verif.try_step_rosenbrock_calls",
    "Verif.do_step_dense_rosenbrock_calls",
    "Verif.integrate_rosenbrock_calls"
   ],
   "note": "the system function returns normally; for bulirsch_stoer the number depends on the data and is that of an extrapolation_stepper of some order; implicit_euler is not included, nor is bulirsch_stoer_dense_out, nor integrate_n_steps with dense output, which does not report its steps"
  },
  {
   "property": "C85",
   "status": "proved",
   "theorems": [
    "Verif.integrate_commutes",
    "Verif.integrate_controlled_commutes",
    "Verif.integrate_dense_commutes",
    "Verif.units_of_state",
    "Verif.otherUnits_same_verdicts"
   ],
   "note": "integrate_commutes, integrate_controlled_commutes and integrate_dense_commutes hold for every arithmetic, also with rounding; units_of_state is about real arithmetic and the default error checker, with the absolute tolerance measured in the new unit"
  },
  {
   "property": "C86",
   "status": "partial",
   "theorems": [
    "Verif.n_steps_exception",
    "Verif.const_exception",
    "Verif.adaptive_exception",
    "Verif.adaptive_controlled_exception",
    "Verif.n_steps_recovery",
    "Verif.const_recovery",
    "Verif.adaptive_recovery",
    "Verif.crash_case",
    "Verif.times_exception_between",
    "Verif.n_steps_exception_dopri5"
   ],
   "note": "proved for explicit Runge-Kutta steppers with integrate_n_steps, integrate_const and integrate_adaptive, and for controlled steppers with integrate_adaptive; refuted for integrate_times (times_exception_between: the state lies between two observations) and for runge_kutta_dopri5 without step size control (n_steps_exception_dopri5: the state is overwritten before the last evaluation); step_adjustment_error, which the library throws itself, is excluded"
  },
  {
   "property": "C87",
   "status": "proved",
   "theorems": [
    "Verif.implicit_euler_stable_linear",
    "Verif.implicit_euler_stable_scalar",
    "Verif.mtl4_stable_linear",
    "Verif.keeps_together",
    "Verif.stiff_returns",
    "Verif.mtl4_not_stable",
    "Verif.euler_not_stable"
   ],
   "note": "about calls that return (for more than one equation implicit_euler may end the program, see C61); exact arithmetic; mtl4_not_stable and euler_not_stable show that the exceptions named in the statement are real"
  },
  {
   "property": "C88",
   "status": "proved",
   "theorems": [
    "Verif.integrate_symplectic",
    "Verif.integrate_symplectic_momentum",
    "Verif.integrate_verlet_symplectic",
    "Verif.integrate_volume",
    "Verif.integrate_volume_momentum",
    "Verif.integrate_verlet_volume",
    "Verif.integrate_sb3a_reverses",
    "Verif.integrate_sb3a_momentum_reverses",
    "Verif.integrate_verlet_reverses",
    "Verif.integrate_symplectic_euler_not_reverses"
   ],
   "note": "exact arithmetic; symplectic steppers with any list of coefficients; the return to the start is about integrate_n_steps and integrate_const (integrate_adaptive makes its shorter step last in both directions)"
  },
  {
   "property": "C89",
   "status": "proved",
   "theorems": [
    "Verif.integrate_variational",
    "Verif.integrate_variational_dopri5"
   ],
   "note": "exact arithmetic; the plain steppers with the integrate functions for a given step size (a controlled stepper would choose its steps by the error of the perturbations as well)"
  },
  {
   "property": "C90",
   "status": "proved",
   "theorems": [
    "Verif.rosenbrock4_converges"
   ],
   "note": "real arithmetic; right-hand sides that do not depend on the time; for small steps and up to the explicit error that comes from the coefficients, which are rounded to sixteen digits"
  },
  {
   "property": "C91",
   "status": "proved",
   "theorems": [
    "Verif.mpi_integrate_like_sequential",
    "Verif.mpi_integrate_plain_like_sequential",
    "Verif.mpi_integrate_adaptive_ends"
   ],
   "note": "any arithmetic with a linear order (no NaN; any arithmetic at all for plain steppers) for the comparison with the sequential run, exact reals for the unconditional end; all plain steppers, controlled_runge_kutta with explicit error steppers and dopri5; system functions that gather the whole state; resizing has been done before"
  },
  {
   "property": "C92",
   "status": "partial",
   "theorems": [
    "Verif.mpi_communicator_partial",
    "Verif.mpi_norm_communicator",
    "Verif.mpi_subcommunicator_deadlock"
   ],
   "note": "true only for MPI_COMM_WORLD: the temporary states of the stepper are default constructed and resizing does not copy the communicator, so a state on fewer processes deadlocks in the first error norm"
  },
  {
   "property": "C93",
   "status": "proved",
   "theorems": [
    "Verif.rosenbrock4_controller_reliable",
    "Verif.ros_usable_kept",
    "Verif.ros_new_usable"
   ],
   "note": "real arithmetic; right-hand sides that do not depend on the time; the controller needs a small limit of the step size (without one the first step may lead to a singular matrix, for which the linear solver is not specified); explicit error of size 10^-13 for the rounded coefficients"
  },
  {
   "property": "C94",
   "status": "proved",
   "theorems": [
    "Verif.bulirsch_stoer_reliable",
    "Verif.bs_tryMem"
   ],
   "note": "real arithmetic; times are compared without a tolerance except in integrate_adaptive; a system function that always returns; the constant depends on the right-hand side, the solution, the interval and the bound for the start state"
  },
  {
   "property": "C95",
   "status": "partial",
   "theorems": [
    "Verif.explicit_reverses",
    "Verif.dopri5_reverses",
    "Verif.adams_bashforth_reverses",
    "Verif.adams_bashforth_moulton_reverses",
    "Verif.symplectic_reverses",
    "Verif.controlled_rk_reverses",
    "Verif.controlled_dopri5_reverses",
    "Verif.default_control_reversed",
    "Verif.default_controlled_rk_reverses",
    "Verif.default_controlled_dopri5_reverses",
    "Verif.rosenbrock_reverses",
    "Verif.controlled_rosenbrock_reverses",
    "Verif.bulirsch_stoer_not_reversed",
    "Verif.bulirsch_stoer_not_reverses"
   ],
   "note": "the full property is false for bulirsch_stoer (negation proved): for negative dt the cost per unit step is negative and the comparisons that choose the order go the wrong way; proved for all explicit steppers, runge_kutta_dopri5, adams_bashforth and adams_bashforth_moulton with an initialising stepper that works in place, the symplectic steppers with two functions, for controlled_runge_kutta with explicit error steppers and with runge_kutta_dopri5 (with the default control in real arithmetic), and for rosenbrock4 and rosenbrock4_controller with a linear solver that gives the same result for ( -A ) x = -b as for A x = b; exact time arithmetic; not for dense output, velocity_verlet and the extrapolation stepper"
  }
 ]
}