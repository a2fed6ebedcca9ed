c("C01", "proved", "integrate_n_steps_grid integrate_n_steps_exception", "for every time arithmetic, stepper and n, including throwing steppers")
c("C02", "proved", "integrate_const_grid integrate_const_exception integrate_const_exact", "call sequence for every time arithmetic; end point and termination in exact Archimedean arithmetic")
c("C03", "proved", "integrate_adaptive_fixed_grid integrate_adaptive_fixed_exact", "the last step is made by the stepper as passed in (the library copies it)")
c("C04", "proved", "integrate_adaptive_controlled_spec integrate_adaptive_controlled_exception integrate_adaptive_controlled_terminates", "all accept/reject histories of contract-abiding steppers; exact arithmetic")
c("C05", "proved", "retry_returns_first_success retry_throws_after_limit retry_never_diverges", "retry loop of integrate_adaptive")
c("C14", "proved", "less_with_sign_trichotomy less_with_sign_iff less_eq_with_sign_eq_not_less less_with_sign_neg min_abs_max_abs_spec", "exact ordered-field arithmetic, any eps >= 0")
c("C16", "proved", "observer_irrelevant_basic observer_irrelevant_controlled observer_irrelevant_dense null_observer_is_pure observer_collection_calls observer_collection_exception observer_collection_basic observer_collection_controlled observer_collection_dense", "")
c("C13", "proved", "mirror_basic mirror_controlled mirror_dense mirror_dense_times", "all integrate functions except the dense-output integrate_n_steps, which is not mirror symmetric (see C11)")
c("C06", "proved", "checked_basic checked_dense checked_controlled_times checked_controlled", "for integrate_n_steps/const with controlled steppers: steppers whose internal state does not influence their results (the library copies the stepper in the unchecked version only)")
c("C07", "proved", "integrate_n_steps_controlled_grid integrate_n_steps_controlled_failure integrate_n_steps_controlled_cases integrate_const_controlled_grid integrate_const_controlled_failure integrate_const_controlled_returns integrate_n_steps_controlled_exact integrate_const_controlled_exact", "call sequence for every time arithmetic and try_step; accepted-step paths and end point in exact arithmetic")
c("C08", "proved", "integrate_times_basic_spec integrate_times_controlled_spec integrate_times_controlled_exception integrate_times_controlled_terminates integrate_times_empty_ub", "exact arithmetic, monotone times; the observer receives the requested times themselves")
c("C12","proved","integrate_adaptive_dense_spec integrate_adaptive_dense_exception integrate_adaptive_dense_terminates","exact arithmetic, contract-abiding dense output steppers")
c("C09","proved","integrate_times_dense_spec integrate_times_dense_exception integrate_times_dense_terminates integrate_times_dense_empty integrate_times_dense_repeated_start","times within eps of the first one are evaluated on the freshly initialised stepper")
c("C10","partial","integrate_const_dense_partial integrate_const_dense_fixed_step integrate_const_dense_exception integrate_const_dense_terminates integrate_const_dense_one_interval integrate_const_dense_overshoot","the full property is false of the code: two counterexample theorems; proved in full for fixed-step dense output with at least two intervals, and for all steppers except for the last state and for grid points beyond t1")
c("C11","partial","integrate_n_steps_dense_forward integrate_n_steps_dense_partial integrate_n_steps_dense_exception integrate_n_steps_dense_terminates integrate_n_steps_dense_backward_wrong","proved in full forward in time; backward in time the last observed state is wrong, counterexample theorem")
c("C15","proved","const_step_range_eq_integrate const_step_range_empty n_step_range_eq_integrate adaptive_range_eq_integrate adaptive_range_empty adaptive_range_dense_eq_integrate times_range_eq_integrate times_range_controlled_differs","equality of whole programs (all effects, exceptions, non-termination) for every stepper and observer; dense output: exact arithmetic and steps larger than 2 eps; times: exact comparisons; last theorem: counterexample for controlled steppers and make_times_time_range")
c("C17","proved","try_step_contract try_step_dxdt_contract try_step_out_contract try_step_out_dxdt_contract try_step_result try_step_overloads_agree fsal_try_step_contract fsal_try_step_out_contract fsal_trial_derivative try_step_success_iff","for every arithmetic, stepper, error checker and step adjuster; the out-of-place overloads need out different from in; the 5-argument out-of-place FSAL overload cannot be instantiated in C++ and is not modelled")
c("C18","proved","decrease_step_formula decrease_step_bounds rejections_shrink try_step_dt_bounds","real arithmetic")
c("C19","partial","increase_step_formula increase_step_bounds_partial increase_step_shrinks try_step_dt_bounds","real arithmetic; the lower bound |dt| holds for stepper orders up to 6 and is refuted for every order from 7 on")
c("C20","partial","check_limit_iff try_step_max_dt_partial try_step_max_dt_flips ros_max_dt_partial ros_max_dt_flips bulirsch_stoer_step_size1 bulirsch_stoer_step_size2 bulirsch_stoer_step_size3 bulirsch_stoer_step_size4 bs_max_dt_flips bulirsch_stoer_dense_step_size_partial","controlled_runge_kutta, rosenbrock4_controller, bulirsch_stoer, and bulirsch_stoer_dense_out forwards in time; when max_dt and dt point in opposite directions the claim is refuted")
c("C21","proved","error_checker_norm error_checker_le_one error_checker_perm try_step_success_iff","real arithmetic, any number of components")
c("C22","proved","ros_do_step ros_try_step ros_try_result ros_accept_iff ros_error_rms ros_error_tolerance ros_try_step_bounds ros_no_growth_after_rejection ros_step_equations ros_try_witness","step and decision for every arithmetic, bounds in real arithmetic; the linear solver is a parameter")
c("C27","proved","do_step_inplace_agrees do_step_dxdt_agrees do_step_err_inplace_agrees dopri5_inplace_agrees","for every arithmetic (no algebraic law used), also when the system function throws")
c("C28","partial","extrapolation_outofplace_partial extrapolation_io_partial extrapolation_inplace_wrong adams_inplace_agrees_partial adams_inplace_warmup_wrong","the in-place overload of extrapolation_stepper is wrong, and so is the warm-up of adams_bashforth in place with that (default) initialising stepper: counterexample theorems; the out-of-place overload, do_step_impl_io and adams_bashforth with any other initialising stepper, or after the warm-up, are proved right")
c("C29","partial","fsal_transparent fsal_cache_valid fsal_evaluations fsal_stale_cache fsal_ctrl_transparent fsal_ctrl_cache_valid fsal_ctrl_given_stale","every history of calls of runge_kutta_dopri5 and of controlled_runge_kutta over it; a successful call of the controlled stepper with a caller-supplied derivative leaves the cached derivative stale (refuted part)")
c("C30","proved","generic_rk_step generic_error_rk_step rk4_classic_agrees cash_karp_classic_agrees","any number of stages")
c("C31","proved","explicit_steppers_order dopri5_order","every complete normed space, every p times continuously differentiable right-hand side; modified_midpoint included; exact arithmetic")
c("C32","proved","error_steppers_order dopri5_error_order","exact arithmetic")
c("C33","proved","euler_dense_continuous dopri5_interpolant_begin dopri5_interpolant_end dopri5_dense_continuous dopri5_dense_smooth dopri5_dense_order_conditions dopri5_dense_order ros_interpolant_ends","exact arithmetic; every history of calls that ends after an accepted step")
c("C34","partial","dense_do_step dense_initialize euler_dense_history dopri_dense_history dopri_dense_step_ok dopri_dense_step_err dopri_dense_valid dopri_dense_fresh dense_late_accept_inconsistent ros_dense_do_step ros_dense_history ros_dense_step_spec ros_dense_fresh ros_dense_late_accept_inconsistent","every arithmetic and every history of calls, also with exceptions; refuted when the 501st trial of one step is accepted: do_step throws after the time has advanced (dense_output_runge_kutta and rosenbrock4_dense_output)")
c("C35","proved","rotating_buffer_window rotating_buffer_front","every buffer size and sequence of operations; no access outside of the storage")
c("C36","partial","adams_bashforth_history adams_bashforth_run adams_bashforth_initialize_run adams_bashforth_moulton_history_partial adams_bashforth_moulton_run adams_bashforth_moulton_initialize_run adams_fresh abm_resize_stale","every number of steps, every coefficient array, every arithmetic, every history of do_step/initialize/reset, with exceptions; refuted for adams_bashforth_moulton when the state size changes while it is running (counterexample theorem)")
c("C37","partial","adams_bashforth_exact adams_bashforth_run_exact adams_moulton_exact_partial adams_bashforth_moulton_run_exact adams_moulton_order_wrong","proved for adams_bashforth and adams_bashforth_moulton; adams_moulton<N>::order() reports N+1, its formula has order N: counterexample for each N")
c("C38","proved","symplectic_composition symplectic_composition_momentum symplectic_bijective symplectic_step symplectic_volume symplectic_consistent symplectic_exact_constant symplectic_do_step","any number of stages and coefficients; symplectic form and volume preserved in every real inner product / normed space")
c("C39","proved","verlet_explicit verlet_history verlet_evaluations verlet_composition verlet_reversible verlet_run_reversible verlet_symplectic verlet_exact_constant verlet_velocity_dependent","histories of all calls; the restriction to velocity-independent accelerations is needed (counterexample)")
c("C49","partial","do_step_exception_safe_partial dopri5_exception_unsafe adams_exception_unsafe symplectic_exception_unsafe verlet_exception_unsafe try_step_contract fsal_try_step_contract","proved for the explicit steppers without FSAL and for controlled_runge_kutta over all of them, FSAL or not; counterexamples for runge_kutta_dopri5 and for adams_bashforth (its history moves before the exception), the symplectic steppers and velocity_verlet (coordinates moved, momenta not)")
c("C50","partial","normInf_nan nan_error_is_zero nan_step_accepted nan_accepted_witness pid_nan_accepted norm_inf_ignores_nan","refuted: the theorems show that an all-NaN error estimate is accepted, for every state size and every arithmetic with IEEE NaN rules")
c("C51","proved","symplectic_reversible sb3a_reversible symplectic_euler_not_reversible symplectic_inplace_agrees symplectic_momentum_version","exact arithmetic for reversibility, any arithmetic for the agreement of the overloads")
c("C52","partial","ros_quadrature ros_weights ros_polynomial_partial ros_time_dependent_wrong ros_weight_d4","refuted for the linear part: the coefficient d4 has the wrong sign")
c("C53","proved","ros_linear ros_stability ros_a_stable ros_decay","exact arithmetic with the tabulated coefficients as decimal numbers; the linear solver is assumed to be exact")
c("C43","proved","range_for_each_in_order array_for_each_in_order array_eq_range scale_sum_for_each swap_for_each rel_error_for_each copy_range norm_inf_spec fusion_norm_inf_eq linTo_refined copyTo_refined linSwap_refined scale_sum_short_ub","all lengths, all aliasing patterns, any arithmetic; the loops refine the primitives of the steppers' model; containers shorter than the first one are undefined behaviour")
c("C44","proved","openmp_range_for_each openmp_range_threads openmp_nested_for_each openmp_nested_threads openmp_race_free openmp_nested_race_free openmp_norm_inf openmp_nested_norm_inf mpi_norm_inf","every functor, number of threads, distribution and interleaving of single loads and stores; race freedom proved, so that sequential consistency is justified")
c("C45","proved","split_offsets_partition split_offsets_balanced mpi_unsplit_split mpi_split_balanced openmp_unsplit_split openmp_split_blocks openmp_split_lengths split_for_each_unsplit openmp_split_unbalanced","64-bit size arithmetic included; computing on the parts and unsplitting is computing on the whole; the openmp_state split itself is not balanced (theorem)")
c("C46","proved","resize_members_spec resize_not_resizeable always_step initially_step never_step adjust_size_spec never_sizes_fixed initially_sizes_fixed adjust_then_never initially_history initially_size_change_ub","resizers with any list of members; histories of calls of runge_kutta4_classic on containers with sizes")
c("C54","proved","n_step_range_dense_spec const_step_range_dense_spec const_step_range_dense_empty times_range_dense_spec","exact arithmetic; stated for runs that return")
c("C40","proved","neville_eliminates neville_reproduces extrapolation_value extrapolation_eliminates","the tableau recursion for arbitrary interval numbers, and extrapolation_stepper::do_step itself (out of place); bulirsch_stoer contains the same extrapolate function")
c("C41","proved","midpoint_gragg midpoint_evaluations midpoint_trapezoid midpoint_exact_linear_time midpoint_even_powers","")
c("C55","proved","extrapolation_order extrapolation_error_order extrapolation_linear_order extrapolation_quadrature extrapolation_evaluations","in == out is excluded: see extrapolation_inplace_wrong (C28)")
c("C47","proved","rk_stability_polynomial rk4_stability_polynomial dopri5_stability_polynomial linear_invariant_step linear_invariant_dopri5 linear_invariant_adams linear_invariant_adams_moulton linear_invariant_adams_initialize linear_invariant_adams_moulton_initialize extrapolation_linear_order","exact arithmetic over the reals; extrapolation_stepper out of place (in place is refuted under C28)")
c("C48","proved","steps_commute controlled_steps_commute linear_linHom reindex_linHom uncoupled_systems","arbitrary sequences of calls to all explicit, FSAL, extrapolation and Adams steppers; also controlled and dense output steppers when the error checkers agree; reindex_linHom holds in any arithmetic")
c("C25","proved","pid_step_bounds controlled_adams_try_step pid_backward_unlimited pid_negative_dtmax","extended real numbers with NaN; any function pow; the boundary cases are stated as theorems: dtmax does not limit backward steps, and a negative dtmax forces acceptance")
c("C26","proved","adaptive_adams_in_bounds controlled_adams_in_bounds aabmInitialize_order controlled_adams_table_too_short","the uncontrolled stepper for every Steps, the controlled one for Steps <= 13; for Steps >= 14 the access out of bounds is proved")
c("C23","proved","bulirsch_stoer_in_bounds bulirsch_stoer_try1 bulirsch_stoer_try2 bulirsch_stoer_try4 bulirsch_stoer_step_size1 bulirsch_stoer_step_size2 bulirsch_stoer_step_size3 bulirsch_stoer_step_size4 bulirsch_stoer_no_growth_after_rejection bs_tiny_step_stuck bs_nan_error_grows bs_max_dt_flips bs_inplace_wrong","tables and order for every number type, every aliasing and every history; values: a try is a step of extrapolation_stepper of some order with error below 1; step size in extended real arithmetic, with the exceptions the statement names proved to occur")
c("C57","proved","pid_accept_iff pid_startup_accept_iff pid_history pid_after_rejection pid_filter_history pid_stationary pid_accepts_any_error pid_nan_accepted pid_negative_dtmax","real arithmetic with exact pow and atan; NaN in the extended reals")
c("C24","partial","bulirsch_stoer_dense_step bulirsch_stoer_dense_in_bounds_partial bulirsch_stoer_dense_step_size_partial bsd_reinitialize_out_of_bounds bsd_backward_stuck bsd_backward_never_returns","bounds: every history of do_step and calc_state after one initialize if the first step does not throw; a second initialize is proved to lead out of bounds. Step size: forwards; backwards it is proved that it is not reduced")
c("C59","proved","bulirsch_stoer_dense_values bulirsch_stoer_dense_do_step bulirsch_stoer_dense_order bulirsch_stoer_dense_error_order","exact arithmetic; every state of the members that the bounds theorem of C24 shows to be reachable")
c("C60","partial","bsd_interpolation_ends_partial bsd_interpolation_differs_at_ends","refuted by a concrete run; holds for constant right-hand sides")
c("C42","proved","implicit_euler_linear implicit_euler_converged implicit_euler_scalar implicit_euler_residual implicit_euler_a_stable","the linear solver of ublas is a parameter with a contract; the program may be ended by exit(0), see C61")
c("C61","partial","implicit_euler_regular_partial implicit_euler_exits","holds for one equation; refuted for two by a concrete run with the algorithm of ublas")
c("C56","proved","adaptive_adams_pece adaptive_adams_initialize_pece controlled_adams_pece adams_pece_exact adamsPec_one","exact real arithmetic; every history of calls before; the controlled stepper for Steps <= 13 and every step adjuster; the start by initialize_controlled is C62")
c("C62","partial","initialize_controlled_partial initialize_controlled_wrong","refuted by a concrete run; holds if the other stepper accepts every step and keeps the step size")
c("C63","proved","explicit_steppers_converge dopri5_converges","exact real arithmetic; any complete normed space as state space; the controlled and dense steppers are not covered by this property")
c("C64","partial","adaptive_memory_partial adaptive_last_step_stale","refuted for runge_kutta_dopri5 by a family of runs whose error is not O(dt^2); holds for the steppers without memory")
c("C65","proved","controlled_steppers_integrate controlled_dopri5_integrates oscillator_cash_karp","the default checker on states with d components, exact real arithmetic")
c("C66","proved","dense_dopri5_integrates oscillator_dense","the default checker and adjuster with or without a step limit, states with d components, exact real arithmetic, times compared without a tolerance")
c("C67","partial","const_checker_observer_partial const_checker_observer_end_violated const_checker_observer_hang_violated","refuted by two concrete runs: without observer the end state is another one, and a call hangs although a checker is passed; holds for plain steppers when the last step ends at the end time")
c("C68","proved","integrate_reliable make_controlled_reliable make_controlled_dopri5_reliable make_dense_output_times_reliable checker_le_one_iff","exact real arithmetic, states with d components; constructors and integrate functions composed; make_dense_output with integrate_times")
c("C69","partial","adams_bashforth_converges_partial adams_bashforth_moulton_converges_partial adams_bashforth_moulton_default_converges adams_bashforth_default_error adams_bashforth_default_not_second_order adams_bashforth_moulton_default_error adams_bashforth_moulton_default_not_sixth_order","order min(N,p+1) for every Runge-Kutta initialising stepper; refuted for the default initialising stepper of adams_bashforth<2..8> and of adams_bashforth_moulton<6..8>; exact real arithmetic")
c("C70","partial","controlled_extrapolation_integrates extrapolation_integration_wrong extrapolation_not_convergent oscillator_extrapolation extrapolation_try_step_contract","proved for the controlled stepper, all even orders from 4; refuted for the plain stepper, whose in-place do_step is wrong; exact real arithmetic")
c("C71","proved","explicit_steppers_converge_with_rounding dopri5_converges_with_rounding ramp_rk4 binaryFormat_accurate","for integrate_n_steps and integrate_const; overflow excluded by the hypothesis that rounding is accurate up to C/u; integrate_adaptive and the controlled steppers are not covered")
c("C72","proved","symplectic_euler_order sb3a_m4_order sb3a_order_partial verlet_order symplectic_steppers_converge symplectic_momentum_steppers_converge verlet_converges verlet_damped_order_fails","the nominal order 4 of symplectic_rkn_sb3a_mclachlan holds for exact coefficients within 4e-20 of the decimals in the code; with the decimals themselves order 2 is proved, as the statement says")
c("C73","partial","adaptive_controlled_ends const_basic_ends adaptive_basic_ends times_basic_ends times_controlled_ends times_dense_ends adaptive_dense_ends_partial adaptive_dense_hangs adaptive_dopri5_dense_hangs binaryFormat_floating","proved for basic and controlled steppers and for integrate_times; for integrate_adaptive with dense output steppers proved for times up to 1/2 (double), refuted for larger times by a call that never returns")
c("C74","partial","rescale_basic rescale_controlled rescale_dense explicit_steppers_rescale unit_of_time_matters short_interval_ignored","proved if the tolerance of the comparisons is rescaled too; with the fixed tolerance of the code refuted")
c("C75","partial","iter_const_basic_eq iter_adaptive_basic_eq iter_n_steps_basic_eq iter_adaptive_controlled_eq iter_times_basic_eq iter_const_dense_eq iter_n_steps_dense_eq iter_adaptive_dense_partial iter_adaptive_dense_differs iter_const_front_dense_differs iter_const_controlled_differs iter_times_count_differs iter_const_basic_empty iter_adaptive_controlled_empty","proved for plain steppers (except for the number returned by integrate_times) and for integrate_adaptive with controlled steppers; the other cases are refuted by concrete runs")
c("C76","proved","symplectic_conserves symplectic_mom_conserves symplectic_momentum_conserved verlet_conserves explicit_linear_conserved dopri5_linear_conserved controlled_linear_conserved controlled_dopri5_linear_conserved dense_dopri5_linear_conserved adams_bashforth_linear_conserved adams_bashforth_moulton_linear_conserved bulirsch_stoer_linear_conserved rosenbrock_linear_conserved controlled_rosenbrock_linear_conserved dense_rosenbrock_linear_conserved","for every time arithmetic, exact arithmetic in the states; with dense output the conditions on the times exclude the runs in which calc_state is called before the first step (C10, C34); the Adams methods with an initialising stepper that can be used in place (C28); the Rosenbrock methods with a Jacobian and a linear solver that respect the law (exact ones do: Solves.conserves); bulirsch_stoer_dense_out is not included")
c("C77","partial","mkl_scale_sum_eq mkl_scale_sum_alias_wrong thrust_norm_inf_abs thrust_norm_inf_nonneg thrust_norm_inf_exists thrust_norm_inf_sign thrust_norm_inf_order thrust_error_eq thrust_error_stricter thrust_error_rejects thrust_error_accepts matrix_norm_bounds matrix_norm_differs","the equality is proved under the conditions named in the theorems and refuted without them: aliasing with MKL, negative components with thrust and Boost.Compute, matrices of ublas")
c("C78","partial","mtl4_linear mtl4_linear_exact mtl4_linear_accuracy mtl4_first_newton mtl4_epsilon_ignored","proved for systems that are linear in the state; refuted for others: the step is one Newton iteration and the tolerance has no effect")
c("C79","partial","gsl_history_partial gsl_no_leak_partial gsl_copy_ub gsl_assign_double_free gsl_assign_leaks gsl_for_each","proved for histories without copies; every copy constructor call is undefined behaviour, and an assignment makes the destruction undefined")
c("C80","proved","n_steps_resume const_resume adaptive_resume times_resume reference_memoryless explicit_memoryless adams_value_restarts","exact arithmetic of times, fixed step size; for steppers without memory and for steppers handed over by reference; adams_value_restarts shows why the reference is needed for adams_bashforth")
c("C81","proved","implicit_euler_converges implicit_euler_converges_solver ublasLu_near","real arithmetic; for small steps only: C61 shows that the Newton iteration, which factorizes the same matrix again and again, may end the program for larger ones")
c("C82","proved","rosenbrock4_order ros_nonlinear_order ros_dense_order","real arithmetic; the Jacobian is exact and the linear systems are solved exactly; systems that depend on the time are excluded because of C52; the tabulated coefficients fulfil the order conditions only up to 1e-15, hence the first term of the bounds")
c("C83","partial","do_step_inside do_step_error_inside do_step_dopri5_inside do_step_extrapolation_inside do_step_adams_inside do_step_rosenbrock_inside try_step_bulirsch_stoer_inside do_step_verlet_inside do_step_implicit_euler_inside try_step_inside integrate_inside stepper_object_inside integrate_controlled_inside integrate_controlled_dopri5_inside integrate_dense_inside_partial default_control_sensible integrate_tries_inside integrate_rosenbrock_inside integrate_bulirsch_stoer_inside integrate_dense_rosenbrock_inside_partial integrate_const_dense_outside","exact arithmetic; integrate_const with a dense output stepper violates the property (integrate_const_dense_outside, for all tolerances and start states); everything else of the property is proved for the steppers named in the theorems")
c("C84","proved","do_step_calls do_step_error_calls do_step_dopri5_calls do_step_dopri5_calls_dxdt do_step_extrapolation_calls do_step_rosenbrock_calls rosenbrock4_jacobian_calls do_step_symplectic_calls do_step_verlet_calls try_step_calls try_step_dopri5_calls do_step_adams_bashforth_calls do_step_adams_bashforth_moulton_calls integrate_calls integrate_controlled_calls integrate_explicit_calls integrate_dopri5_calls integrate_adams_calls integrate_adaptive_controlled_calls integrate_adaptive_controlled_dopri5_calls try_step_bulirsch_stoer_calls integrate_bulirsch_stoer_calls do_step_dense_calls do_step_dense_dopri5_calls integrate_dense_calls integrate_dense_dopri5_calls try_step_rosenbrock_calls do_step_dense_rosenbrock_calls integrate_rosenbrock_calls","the system function returns normally; for bulirsch_stoer the number depends on the data and is that of an extrapolation_stepper of some order; implicit_euler is not included, nor is bulirsch_stoer_dense_out, nor integrate_n_steps with dense output, which does not report its steps")
c("C85","proved","integrate_commutes integrate_controlled_commutes integrate_dense_commutes units_of_state otherUnits_same_verdicts","integrate_commutes, integrate_controlled_commutes and integrate_dense_commutes hold for every arithmetic, also with rounding; units_of_state is about real arithmetic and the default error checker, with the absolute tolerance measured in the new unit")
c("C86","partial","n_steps_exception const_exception adaptive_exception adaptive_controlled_exception n_steps_recovery const_recovery adaptive_recovery crash_case times_exception_between n_steps_exception_dopri5","proved for explicit Runge-Kutta steppers with integrate_n_steps, integrate_const and integrate_adaptive, and for controlled steppers with integrate_adaptive; refuted for integrate_times (times_exception_between: the state lies between two observations) and for runge_kutta_dopri5 without step size control (n_steps_exception_dopri5: the state is overwritten before the last evaluation); step_adjustment_error, which the library throws itself, is excluded")
c("C87","proved","implicit_euler_stable_linear implicit_euler_stable_scalar mtl4_stable_linear keeps_together stiff_returns mtl4_not_stable euler_not_stable","about calls that return (for more than one equation implicit_euler may end the program, see C61); exact arithmetic; mtl4_not_stable and euler_not_stable show that the exceptions named in the statement are real")
c("C88","proved","integrate_symplectic integrate_symplectic_momentum integrate_verlet_symplectic integrate_volume integrate_volume_momentum integrate_verlet_volume integrate_sb3a_reverses integrate_sb3a_momentum_reverses integrate_verlet_reverses integrate_symplectic_euler_not_reverses","exact arithmetic; symplectic steppers with any list of coefficients; the return to the start is about integrate_n_steps and integrate_const (integrate_adaptive makes its shorter step last in both directions)")
c("C89","proved","integrate_variational integrate_variational_dopri5","exact arithmetic; the plain steppers with the integrate functions for a given step size (a controlled stepper would choose its steps by the error of the perturbations as well)")
c("C90","proved","rosenbrock4_converges","real arithmetic; right-hand sides that do not depend on the time; for small steps and up to the explicit error that comes from the coefficients, which are rounded to sixteen digits")
c("C91","proved","mpi_integrate_like_sequential mpi_integrate_plain_like_sequential mpi_integrate_adaptive_ends","any arithmetic with a linear order (no NaN; any arithmetic at all for plain steppers) for the comparison with the sequential run, exact reals for the unconditional end; all plain steppers, controlled_runge_kutta with explicit error steppers and dopri5; system functions that gather the whole state; resizing has been done before")
c("C92","partial","mpi_communicator_partial mpi_norm_communicator mpi_subcommunicator_deadlock","true only for MPI_COMM_WORLD: the temporary states of the stepper are default constructed and resizing does not copy the communicator, so a state on fewer processes deadlocks in the first error norm")
c("C93","proved","rosenbrock4_controller_reliable ros_usable_kept ros_new_usable","real arithmetic; right-hand sides that do not depend on the time; the controller needs a small limit of the step size (without one the first step may lead to a singular matrix, for which the linear solver is not specified); explicit error of size 10^-13 for the rounded coefficients")
c("C94","proved","bulirsch_stoer_reliable bs_tryMem","real arithmetic; times are compared without a tolerance except in integrate_adaptive; a system function that always returns; the constant depends on the right-hand side, the solution, the interval and the bound for the start state")
c("C95","partial","explicit_reverses dopri5_reverses adams_bashforth_reverses adams_bashforth_moulton_reverses symplectic_reverses controlled_rk_reverses controlled_dopri5_reverses default_control_reversed default_controlled_rk_reverses default_controlled_dopri5_reverses rosenbrock_reverses controlled_rosenbrock_reverses bulirsch_stoer_not_reversed bulirsch_stoer_not_reverses","the full property is false for bulirsch_stoer (negation proved): for negative dt the cost per unit step is negative and the comparisons that choose the order go the wrong way; proved for all explicit steppers, runge_kutta_dopri5, adams_bashforth and adams_bashforth_moulton with an initialising stepper that works in place, the symplectic steppers with two functions, for controlled_runge_kutta with explicit error steppers and with runge_kutta_dopri5 (with the default control in real arithmetic), and for rosenbrock4 and rosenbrock4_controller with a linear solver that gives the same result for ( -A ) x = -b as for A x = b; exact time arithmetic; not for dense output, velocity_verlet and the extrapolation stepper")
