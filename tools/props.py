#!/usr/bin/env python3
"""Writes /verif/properties.jsonl (one JSON object per line)."""
import json
OI = "include/boost/numeric/odeint/"
P = []
def p(i, title, statement, quantifier, why, anchors):
    P.append(dict(id=i, title=title, statement=statement, quantifier=quantifier,
                  why_tests_cant=why, anchors=[OI + a if not a.startswith("/") else a[1:] for a in anchors]))

# ---------------------------------------------------------------- integrate, fixed step
p("C01", "integrate_n_steps with a fixed-step stepper visits exactly the grid t0+k*dt",
  "integrate_n_steps(stepper, sys, x0, t0, dt, n, obs) with a plain/error stepper calls do_step exactly n times, with (state after k steps, t0+k*dt, dt); calls the observer exactly n+1 times with (state after k steps, t0+k*dt) for k=0..n in this order; leaves the state after n steps in x0 and returns t0+n*dt (t0 itself when n=0). If a do_step throws, exactly the observations made before it have happened and the exception propagates.",
  "all steppers (with arbitrary internal state, possibly throwing), systems, states, start times, step sizes, step counts n, and all arithmetics of the time type (no law of + and * is used, so IEEE doubles are covered)",
  "a test fixes one n, one dt and one stepper; the call sequence must be right for every n, every time type and every stepper with hidden state",
  ["integrate/integrate_n_steps.hpp:integrate_n_steps", "integrate/detail/integrate_n_steps.hpp:detail::integrate_n_steps(stepper_tag)"])
p("C02", "integrate_const with a fixed-step stepper observes t0, t0+dt, ..., t' and stops at the right grid point",
  "integrate_const(stepper, sys, x0, t0, t1, dt, obs) with a plain/error stepper terminates for dt != 0, calls the observer at exactly t0+k*dt, k=0..n, with the state after k steps, returns n, and leaves the state after n steps in x0, where n is the number of grid intervals that fit: every grid point k<=n is not beyond t1 (up to the comparison tolerance eps) and grid point n+1 is beyond t1; if t1 lies before t0+dt no step is done and the observer is called once.",
  "all steppers, states, t0, t1, dt of either sign; observation times for every arithmetic of the time type, the position of the last grid point for exact ordered-field arithmetic with any eps>=0",
  "the off-by-one and the tolerance at the end point depend on t1-t0 relative to dt; no finite set of (t0,t1,dt) settles it",
  ["integrate/integrate_const.hpp:integrate_const", "integrate/detail/integrate_const.hpp:detail::integrate_const(stepper_tag)", "util/detail/less_with_sign.hpp:less_eq_with_sign"])
p("C03", "integrate_adaptive with a fixed-step stepper ends exactly at t1",
  "integrate_adaptive(stepper, sys, x0, t0, t1, dt, obs) with a plain/error stepper behaves like integrate_const and then, if the last grid point is before t1 by more than eps, performs exactly one further do_step from that grid point with step size t1-(grid point) and calls the observer at exactly t1; the return value is the number of do_step calls; the last observed time differs from t1 by at most eps (when t1 is not before t0).",
  "all steppers, states, t0, t1, dt of either sign, eps>=0, exact ordered-field time arithmetic",
  "depends on the remainder of (t1-t0)/dt for all reals",
  ["integrate/detail/integrate_adaptive.hpp:detail::integrate_adaptive(stepper_tag)"])
p("C04", "integrate_adaptive with a controlled stepper ends at t1, never beyond, and observes every accepted step",
  "whenever integrate_adaptive(controlled_stepper, sys, x0, t0, t1, dt, obs) returns: the observer was called first with (x0,t0), then once after each accepted step with the new state and time, so (returned step count)+1 times; each observed time is the previous one plus the step size of the accepted trial; observed times are strictly monotone in the direction of integration; no observed time is beyond t1 by more than eps; the last observed time is within eps of t1 (if t0 was not already beyond t1), and x0 holds the last observed state.",
  "all controlled steppers satisfying the controlled-stepper concept (success: t+=dt, dt keeps its sign; fail: x,t unchanged), all histories of accept/reject decisions, all t0,t1,dt",
  "the accept/reject history is chosen by the error control; infinitely many histories exist",
  ["integrate/detail/integrate_adaptive.hpp:detail::integrate_adaptive(controlled_stepper_tag)", "integrate/integrate_adaptive.hpp:integrate_adaptive"])
p("C05", "Step-size search always stops: step_adjustment_error after the attempt limit",
  "inside one step of integrate_adaptive (and one do_step of the dense output steppers) the controlled stepper is tried at most 501 times: if 500 consecutive trials are rejected, the next trial is the last one and a step_adjustment_error is thrown after it; no exception is thrown if one of the first 500 trials is accepted; the counter is reset by an accepted step. Every run therefore either makes progress or throws - it never loops forever on rejections.",
  "all controlled steppers (arbitrary reject sequences) and all states",
  "a test can only exercise one rejecting stepper; the bound must hold for every accept/reject sequence",
  ["integrate/max_step_checker.hpp:failed_step_checker", "integrate/detail/integrate_adaptive.hpp:detail::integrate_adaptive(controlled_stepper_tag)", "stepper/dense_output_runge_kutta.hpp:do_step"])
p("C06", "max_step_checker bounds the work between observations",
  "with a max_step_checker(m) passed to integrate_const / integrate_n_steps / integrate_times, the (m+1)-th step since the last observer call throws no_progress_error (basic: after that step; controlled: after that accepted step; dense output: before that step), and no exception is thrown as long as at most m steps lie between consecutive observer calls; without overflow the checked run has exactly the same observations, states and result as the unchecked run.",
  "all steppers, all histories of steps and observer calls, all limits m",
  "needs every interleaving of steps and observer calls",
  ["integrate/max_step_checker.hpp:max_step_checker", "integrate/check_adapter.hpp:checked_stepper", "integrate/check_adapter.hpp:checked_observer"])
p("C07", "integrate_const / integrate_n_steps with a controlled stepper observe exactly the equidistant grid",
  "with a controlled stepper, integrate_n_steps calls the observer exactly at t0+k*dt for k=0..n and returns t0+n*dt, integrate_const calls it exactly at t0+k*dt for all grid points not beyond t1; the state observed at grid point k+1 is the result of integrate_adaptive from grid point k to grid point k+1 started with the state observed at grid point k and the step size left over from the previous interval; integrate_const returns the total number of accepted steps.",
  "all controlled steppers, all accept/reject histories, all grids; observation times hold for every arithmetic of the time type",
  "the inner adaptive runs have unbounded, data-dependent length",
  ["integrate/detail/integrate_const.hpp:detail::integrate_const(controlled_stepper_tag)", "integrate/detail/integrate_n_steps.hpp:detail::integrate_n_steps(controlled_stepper_tag)"])
p("C08", "integrate_times with a fixed-step or controlled stepper observes exactly the requested times",
  "integrate_times(stepper, sys, x0, first, last, dt, obs) with a non-empty monotone sequence of times calls the observer exactly once per element, in order, with a time within eps of the requested one (exactly the requested one after a shortened last step), never performs a step longer than dt (fixed-step) and never steps beyond the next requested time by more than eps; the return value is the number of (accepted) steps.",
  "all steppers, all accept/reject histories, all finite monotone time sequences of any length and spacing, dt of either sign",
  "sequence length and spacing are unbounded",
  ["integrate/detail/integrate_times.hpp:detail::integrate_times(stepper_tag)", "integrate/detail/integrate_times.hpp:detail::integrate_times(controlled_stepper_tag)"])
p("C09", "integrate_times with a dense-output stepper: every requested time observed once, by interpolation, never past the last time",
  "with a dense-output stepper and a monotone sequence of times, integrate_times calls the observer exactly once for each requested time, in order and with exactly that time; each state passed to the observer (after the first) is calc_state at that time, and the time lies in the interval of the stepper's latest step (up to eps), i.e. it is interpolation and never extrapolation (requested times equal to the start time, up to eps, are evaluated on the freshly initialised stepper instead); no step is attempted whose proposed end lies beyond the last requested time by more than eps; an empty range returns 0 without touching anything.",
  "all dense-output steppers that keep the concept's contract, all step-size histories, all finite monotone sequences",
  "which step covers which time point depends on the step-size history",
  ["integrate/detail/integrate_times.hpp:detail::integrate_times(dense_output_stepper_tag)"])
p("C10", "integrate_const with a dense-output stepper observes the equidistant grid by interpolation only",
  "with a dense-output stepper, integrate_const calls the observer exactly at t0+k*dt for all grid points not beyond t1, each state being calc_state at that time taken inside the latest step interval. (Found to be violated: when exactly one interval fits, the last calc_state is made on a stepper that has made no step; when the step size grows, grid points beyond t1 are observed.)",
  "all dense-output steppers keeping the concept's contract, all t0,t1,dt, all step-size histories",
  "the failing runs need a particular relation between t1-t0, dt and the step-size history",
  ["integrate/detail/integrate_const.hpp:detail::integrate_const(dense_output_stepper_tag)"])
p("C11", "integrate_n_steps with a dense-output stepper ends at t0+n*dt in both time directions",
  "with a dense-output stepper, integrate_n_steps calls the observer exactly n+1 times at t0+k*dt, k=0..n, and the last observed state is the stepper's state at t0+n*dt. (Found to be violated for dt<0: the closing loop compares without regard to the direction of time.)",
  "all dense-output steppers keeping the concept's contract, all n, dt of either sign, all step-size histories",
  "data-dependent step histories; direction of time",
  ["integrate/detail/integrate_n_steps.hpp:detail::integrate_n_steps(dense_output_stepper_tag)"])
p("C12", "integrate_adaptive with a dense-output stepper ends at t1 and observes every step",
  "whenever integrate_adaptive with a dense-output stepper returns, the observer was called before every do_step and once at the end with the stepper's current state and time, (returned count)+1 times in total; the first observation is (x0,t0), no observed time is beyond t1 by more than eps, the last one is within eps of t1, and x0 holds the last observed state.",
  "all dense-output steppers keeping the concept's contract, all step-size histories, t0,t1,dt of either sign",
  "unbounded data-dependent loops with re-initialisation of the stepper near the end",
  ["integrate/detail/integrate_adaptive.hpp:detail::integrate_adaptive(dense_output_stepper_tag)"])
p("C13", "Backward integration is the mirror image of forward integration",
  "negating all times, the step size (and max step size) and the direction in which the stepper moves turns a run of the integrate functions into a run with the same observer states at the negated times, the same step count and the same final state.",
  "all steppers, all t0,t1,dt with dt != 0, all eps",
  "a sign slip in one comparison is visible only for particular end-point configurations",
  ["util/detail/less_with_sign.hpp:less_with_sign", "util/detail/less_with_sign.hpp:less_eq_with_sign", "util/detail/less_with_sign.hpp:min_abs", "integrate/detail/integrate_const.hpp:detail::integrate_const", "integrate/detail/integrate_adaptive.hpp:detail::integrate_adaptive"])
p("C14", "Direction-aware comparisons are a consistent tolerance order",
  "for eps>=0 and dt != 0: exactly one of less_with_sign(a,b), less_with_sign(b,a), |a-b|<=eps holds; less_eq_with_sign(a,b) is the negation of less_with_sign(b,a); min_abs returns the argument of smaller magnitude and max_abs the one of larger magnitude for arguments of equal sign, and both keep that sign.",
  "all times a,b, all dt, all eps>=0",
  "real-valued inputs",
  ["util/detail/less_with_sign.hpp:less_with_sign", "util/detail/less_with_sign.hpp:less_eq_with_sign", "util/detail/less_with_sign.hpp:min_abs", "util/detail/less_with_sign.hpp:max_abs"])
# ---------------------------------------------------------------- iterators
p("C15", "Iterating a stepper gives the same sequence as the integrate function's observer",
  "the (state,time) sequence produced by make_const_step_time_range and make_n_step_time_range (plain steppers), make_adaptive_time_range (controlled and dense output steppers) and make_times_time_range (plain steppers) equals the sequence of observer calls of integrate_const / integrate_n_steps / integrate_adaptive / integrate_times with the same arguments, whenever t1 is not before t0 by more than eps; otherwise the range is empty whereas the integrate functions still observe the initial state once. (make_times_time_range over a controlled stepper does not have this property: it forgets a step size reduced by a rejection.)",
  "all steppers, states, t0,t1,dt, n, and sequences; accept/reject histories below the attempt limits",
  "equality of two unbounded loops for all inputs",
  ["iterator/impl/const_step_iterator_impl.hpp:const_step_iterator_impl", "iterator/impl/n_step_iterator_impl.hpp:n_step_iterator_impl", "iterator/impl/adaptive_iterator_impl.hpp:adaptive_iterator_impl", "iterator/impl/times_iterator_impl.hpp:times_iterator_impl", "iterator/detail/ode_iterator_base.hpp:ode_iterator_base"])
p("C16", "Observers only ever see the integration: observer collections and null observers change nothing",
  "an observer_collection calls each of its observers once, in order, with the same arguments; replacing the observer never changes states, times, step counts or the result of an integrate function.",
  "all observer lists, all runs of the integrate functions",
  "non-interference over all runs",
  ["integrate/observer_collection.hpp:observer_collection", "integrate/null_observer.hpp:null_observer"])
# ---------------------------------------------------------------- controllers
p("C17", "controlled_runge_kutta keeps the controlled-stepper contract",
  "try_step(sys, x, t, dt) returns success iff the step size is within the limit and the weighted error estimate is <= 1; on success x holds the error stepper's result for the old x,t,dt and t is increased by the old dt; on fail x and t are unchanged; the in-place, out-of-place and dxdt-supplied overloads agree; the FSAL overloads additionally store f at the new state in the derivative on success and leave it unchanged on fail.",
  "all error steppers, systems, states, times, step sizes, tolerances, limits",
  "error estimates take all real values, decisions are per input",
  ["stepper/controlled_runge_kutta.hpp:controlled_runge_kutta::try_step (explicit_error_stepper_tag)", "stepper/controlled_runge_kutta.hpp:controlled_runge_kutta::try_step (explicit_error_stepper_fsal_tag)"])
p("C18", "Rejected steps shrink the step size within fixed bounds",
  "after a rejection with error e>1 (no step-size limit violated) the new step size has the same sign and its magnitude lies between 1/5 and 9/10 of the old one and equals dt*max(0.9*e^(-1/(order-1)),0.2); hence k consecutive rejections shrink the step at least by 0.9^k.",
  "all errors e>1 (real), all dt, all error orders >= 2",
  "real-valued error and step size",
  ["stepper/controlled_runge_kutta.hpp:default_step_adjuster::decrease_step"])
p("C19", "Accepted steps never shrink the next step and never enlarge it more than five-fold",
  "after an accepted step with error e<=1 the proposed step has the same sign and magnitude between |dt| and 5|dt| (4.5 by formula), equal to dt for 0.5<=e<=1, and 4.5*dt for e small. (Found to be violated from below for steppers of order >= 7, e.g. runge_kutta_fehlberg78: for errors slightly below 0.5 the accepted step is followed by a smaller proposal.)",
  "all errors 0<=e<=1 (real), all dt, all stepper orders",
  "the violation is confined to a narrow interval of real error values",
  ["stepper/controlled_runge_kutta.hpp:default_step_adjuster::increase_step"])
p("C20", "max_dt is respected",
  "with a positive max_dt and forward integration no accepted step of controlled_runge_kutta (likewise bulirsch_stoer, rosenbrock4_controller) is longer than max_dt (+eps), every proposed step size after a try_step is at most max_dt(+eps), and a try_step with a longer dt does nothing but set dt=max_dt and report fail; mirrored for negative max_dt and backward integration. (Found to be violated when max_dt and dt have opposite signs: the step size flips direction.)",
  "all error steppers, states, dt, max_dt",
  "real-valued step sizes; sign combinations; histories of tries",
  ["stepper/controlled_runge_kutta.hpp:default_step_adjuster::check_step_size_limit", "stepper/controlled_runge_kutta.hpp:default_step_adjuster::increase_step", "stepper/bulirsch_stoer.hpp:bulirsch_stoer::try_step", "stepper/rosenbrock4_controller.hpp:rosenbrock4_controller::try_step"])
p("C21", "The error test is the documented weighted maximum norm",
  "default_error_checker::error returns max_i |err_i| / (eps_abs + eps_rel*(a_x*|x_i| + a_dxdt*|dt|*|dxdt_i|)); in particular the value is <= 1 iff every component satisfies |err_i| <= eps_abs + eps_rel*(...), it is >= 0, and it does not depend on the order of the components.",
  "all state dimensions n, all real component values, all positive eps_abs and non-negative eps_rel, a_x, a_dxdt",
  "unbounded dimension and real values",
  ["stepper/controlled_runge_kutta.hpp:default_error_checker::error", "algebra/default_operations.hpp:rel_error", "algebra/detail/norm_inf.hpp:norm_inf", "algebra/range_algebra.hpp:range_algebra::norm_inf"])
p("C22", "rosenbrock4_controller: bounded step changes and no growth right after a rejection",
  "every try_step of rosenbrock4_controller accepts iff its error measure, the root mean square of the components of the error estimate in units of atol + rtol*max(|xold|,|x|), is <= 1; the next step size has the same sign and lies between 1/5 and 6 times the old one; on rejection it is strictly smaller (at most 0.9 of the old one); an accepted step directly after a rejection never proposes a larger step; x and t change only on success.",
  "all errors, dt of either sign, all histories of accept/reject (controller memory), max_dt",
  "controller memory: all histories",
  ["stepper/rosenbrock4_controller.hpp:rosenbrock4_controller::try_step"])
p("C23", "bulirsch_stoer controller stays inside its tables and keeps the controlled-stepper contract",
  "for every history of try_step calls (any error values, including changes of dt and resets from outside) the working order stays in 2..m_k_max-1, every table access is in bounds, x and t change only on success (t by exactly dt, x to the value that extrapolation_stepper of some order computes, with an error below 1), and a rejected try strictly reduces |dt| and keeps its sign; a try after a rejected one does not enlarge |dt|; max_dt is observed. Exceptions found: a second rejection in a row leaves a step of at most 50/3 epsilon unchanged (for ever, if it is at most epsilon), max_dt with the opposite sign turns the step round, an error checker that returns NaN makes every try fail and the step longer, and the version with separate output is wrong when input and output are the same object.",
  "all histories of error estimates, resets and step-size changes",
  "the order/step-size state machine has unboundedly many histories",
  ["stepper/bulirsch_stoer.hpp:bulirsch_stoer::try_step", "stepper/bulirsch_stoer.hpp:bulirsch_stoer::calc_h_opt", "stepper/bulirsch_stoer.hpp:bulirsch_stoer::should_reject"])
p("C24", "bulirsch_stoer_dense_out stays inside its tables and reduces the step after every rejection",
  "for every history of initialize/do_step calls every table access is in bounds, and every rejected try reduces the step size, in both time directions. (Found to be violated: after initialize the first step can read m_cost[m_k_max+1], one past the end, when the order had grown to m_k_max-1; and for backward integration a second consecutive rejection leaves dt unchanged.)",
  "all histories of error estimates and initialize calls, dt of either sign",
  "needs a particular order history followed by a re-initialisation, or backward integration with repeated rejections",
  ["stepper/bulirsch_stoer_dense_out.hpp:bulirsch_stoer_dense_out::try_step", "stepper/bulirsch_stoer_dense_out.hpp:bulirsch_stoer_dense_out::initialize", "stepper/bulirsch_stoer_dense_out.hpp:bulirsch_stoer_dense_out::do_step"])
p("C25", "PID step adjuster: bounded, direction-preserving step-size changes",
  "for every error history the step-size ratio proposed by the PID adjuster of controlled_adams_bashforth_moulton is strictly positive, at least 1-pi/4 and at most 1+pi/2 (reached only for a zero error) unless capped by dtmax, so the step keeps its direction; a forward step never exceeds dtmax (dtmax does not limit steps backwards in time); a try is reported as success iff the ratio is at least 0.9; on failure state and time are unchanged and the new step is shorter than 9/10 of the old one.",
  "all error values including infinities and NaN, all histories, all positive dtmax, steps in both directions",
  "real-valued error histories",
  ["stepper/detail/pid_step_adjuster.hpp:pid_step_adjuster::adjust_stepsize", "stepper/controlled_adams_bashforth_moulton.hpp:controlled_adams_bashforth_moulton::try_step"])
p("C26", "controlled_adams_bashforth_moulton: the order stays within 1..Steps and within the available history",
  "for every sequence of accepted/rejected tries and every error pattern the working order stays between 1 and the maximal order and never exceeds the number of steps stored, so every access to the difference table, the coefficient arrays and the time history is in bounds. (Holds for Steps <= 13; with Steps >= 14 the table gs with 14 entries is read past its end.)",
  "all histories of error patterns, all maximal orders",
  "order state machine with unbounded histories",
  ["stepper/controlled_adams_bashforth_moulton.hpp:default_order_adjuster::adjust_order", "stepper/detail/adaptive_adams_coefficients.hpp:adaptive_adams_coefficients", "stepper/adaptive_adams_bashforth_moulton.hpp:adaptive_adams_bashforth_moulton::do_step"])
# ---------------------------------------------------------------- explicit steppers
p("C27", "In-place and out-of-place do_step agree",
  "for euler, runge_kutta4, runge_kutta4_classic, runge_kutta_cash_karp54(_classic), runge_kutta_dopri5, runge_kutta_fehlberg78 and modified_midpoint, do_step(sys,x,t,dt) leaves in x exactly the value do_step(sys,in,t,out,dt) writes to out for in = old x (also when in and out are the same object), and the versions with caller-supplied dxdt = f(x,t) give the same value.",
  "all systems, states, times, step sizes, all (law-free) arithmetics of the value type",
  "aliasing bugs show only for particular data and system functions",
  ["stepper/base/explicit_stepper_base.hpp:explicit_stepper_base::do_step", "stepper/base/explicit_error_stepper_base.hpp:explicit_error_stepper_base::do_step", "stepper/base/explicit_error_stepper_fsal_base.hpp:explicit_error_stepper_fsal_base::do_step", "stepper/runge_kutta_dopri5.hpp:runge_kutta_dopri5::do_step_impl", "stepper/modified_midpoint.hpp:modified_midpoint::do_step_impl"])
p("C28", "extrapolation_stepper and adams_bashforth: in-place and out-of-place stepping agree",
  "do_step(sys,x,t,dt) of extrapolation_stepper and of adams_bashforth leaves in x the value that do_step(sys,in,t,out,dt) writes to out. (Found to be violated: the in-place overload of extrapolation_stepper hands the same object as input and output to a routine that overwrites its input after the first midpoint sequence, so it computes a wrong state; adams_bashforth inherits this during its automatic warm-up. The out-of-place overload and the separate in-place routine used by initialize() are right.)",
  "all systems, states, step counts Steps",
  "only the un-initialised in-place path with the default initialising stepper shows it",
  ["stepper/adams_bashforth.hpp:adams_bashforth::do_step", "stepper/adams_bashforth.hpp:adams_bashforth::do_step_impl", "stepper/extrapolation_stepper.hpp:extrapolation_stepper::do_step_dxdt_impl"])
p("C29", "FSAL caching is transparent",
  "for an FSAL stepper (runge_kutta_dopri5, and controlled_runge_kutta over it) a sequence of do_step/try_step calls in which each call starts from the state and time reached by the previous one gives exactly the same states as steps that evaluate f afresh each time; the cached derivative always equals f(current state,current time); after reset(), initialize(sys,x,t), or a call with caller-supplied derivative the guarantee starts anew for any state. (The last item is found to be violated by the controlled stepper: a successful try_step with a caller-supplied derivative moves the state but keeps the old cached derivative as valid.)",
  "all systems, all finite call sequences mixing the overloads, all step sizes and accept/reject outcomes",
  "histories of overload calls",
  ["stepper/base/explicit_error_stepper_fsal_base.hpp:explicit_error_stepper_fsal_base", "stepper/controlled_runge_kutta.hpp:controlled_runge_kutta (explicit_error_stepper_fsal_tag)"])
p("C30", "The generic Runge-Kutta machinery computes the Butcher-tableau formula",
  "explicit_generic_rk / explicit_error_generic_rk with tableau (a,b,c) compute k_i = f(x + dt*sum_j a_ij k_j, t + c_i dt), x_new = x + dt*sum b_i k_i and x_err = dt*sum b2_i k_i for any number of stages, evaluating f exactly once per stage in order; runge_kutta4 agrees with runge_kutta4_classic and runge_kutta_cash_karp54 with runge_kutta_cash_karp54_classic for all systems.",
  "all stage counts, tableaux, systems, states, step sizes (exact field arithmetic for the agreement of the two implementations)",
  "all systems and states",
  ["stepper/detail/generic_rk_algorithm.hpp:generic_rk_algorithm", "stepper/explicit_generic_rk.hpp:explicit_generic_rk", "stepper/explicit_error_generic_rk.hpp:explicit_error_generic_rk", "stepper/runge_kutta4.hpp", "stepper/runge_kutta4_classic.hpp", "stepper/runge_kutta_cash_karp54.hpp", "stepper/runge_kutta_cash_karp54_classic.hpp"])
p("C31", "Runge-Kutta steppers have the order reported by order()",
  "the Taylor expansion in dt of one do_step of euler, modified_midpoint (2), runge_kutta4(_classic), runge_kutta_cash_karp54(_classic), runge_kutta_dopri5, runge_kutta_fehlberg78 agrees with that of the exact solution through the power order() (1, 4, 5, 5, 8), for every smooth right-hand side, autonomous or not.",
  "all (formal) right-hand sides, state spaces of any dimension, initial states",
  "a convergence test checks finitely many problems; the order conditions must hold for all of them",
  ["stepper/euler.hpp", "stepper/runge_kutta4.hpp", "stepper/runge_kutta_cash_karp54.hpp", "stepper/runge_kutta_dopri5.hpp", "stepper/runge_kutta_fehlberg78.hpp"])
p("C32", "Embedded error estimates are differences of two consistent methods with the advertised error order",
  "the x_err reported by runge_kutta_cash_karp54, runge_kutta_dopri5 and runge_kutta_fehlberg78 is the difference between the step result and an embedded result of one order less; it vanishes for constant right-hand sides and its Taylor expansion starts at the power error_order()+1 (or later) of dt.",
  "all (formal) right-hand sides, states, step sizes",
  "as for the order itself",
  ["stepper/runge_kutta_cash_karp54.hpp", "stepper/runge_kutta_dopri5.hpp:do_step_impl(xerr)", "stepper/runge_kutta_fehlberg78.hpp"])
p("C33", "Dense output is continuous with the steps it interpolates",
  "for euler and runge_kutta_dopri5 dense output (and rosenbrock4), calc_state at the beginning/end of the last step returns exactly the old/new state; for dopri5 the interpolant is moreover continuously differentiable across steps (its derivative at both ends is f there) and satisfies the order conditions of a continuous method of order 4 at every interior point.",
  "all systems, states, step sizes, all interpolation points",
  "a polynomial identity in theta for all data",
  ["stepper/runge_kutta_dopri5.hpp:runge_kutta_dopri5::calc_state", "stepper/euler.hpp:euler::calc_state", "stepper/dense_output_runge_kutta.hpp:dense_output_runge_kutta::calc_state", "stepper/rosenbrock4.hpp:rosenbrock4::calc_state"])
p("C34", "dense_output_runge_kutta keeps current and previous state/time consistent",
  "after initialize(x0,t0,dt0) and any number of do_step calls, do_step returns (previous current_time, new current_time), previous_state/previous_time are what current_state/current_time were before the last step, the new state is the underlying stepper's step from the old one, and (controlled version) the stored derivative belongs to the current state; the state buffers are never mixed up.",
  "all numbers of steps, all steppers/systems, all accept/reject histories",
  "double buffering over unbounded histories",
  ["stepper/dense_output_runge_kutta.hpp:dense_output_runge_kutta (stepper_tag)", "stepper/dense_output_runge_kutta.hpp:dense_output_runge_kutta (explicit_controlled_stepper_fsal_tag)", "stepper/rosenbrock4_dense_output.hpp:rosenbrock4_dense_output"])
# ---------------------------------------------------------------- multistep
p("C35", "rotating_buffer is a correct history window",
  "after any sequence of writes to slot 0 and rotate() calls, buffer[i] is the value that was written to slot 0 i rotations ago (for i < N), for every buffer size N>=1, and operator[] never leaves the storage.",
  "all buffer sizes, all operation sequences",
  "unbounded operation sequences and modular index arithmetic",
  ["stepper/detail/rotating_buffer.hpp:rotating_buffer"])
p("C36", "adams_bashforth / adams_bashforth_moulton use exactly the last Steps derivatives",
  "after initialize(), or after Steps-1 automatic warm-up steps (out-of-place), every further do_step computes x + dt*sum_j beta_j f(x_{n-j},t_{n-j}) with the derivatives of the last Steps states in the right order (Adams-Bashforth), respectively the predictor-corrector formula with one extra evaluation at the predicted state (Adams-Bashforth-Moulton); reset() restarts the warm-up; the first Steps-1 steps are done by the initialising stepper.",
  "all histories of do_step/initialize/reset calls, all Steps 1..8, all systems",
  "histories; index errors in the history are data dependent",
  ["stepper/adams_bashforth.hpp:adams_bashforth::do_step_impl", "stepper/adams_bashforth.hpp:adams_bashforth::initialize", "stepper/adams_bashforth_moulton.hpp:adams_bashforth_moulton::do_step_impl1", "stepper/detail/adams_bashforth_call_algebra.hpp"])
p("C37", "Adams coefficients integrate polynomials exactly up to the advertised order",
  "adams_bashforth<Steps> reproduces the exact solution of x'=p(t) for every polynomial p of degree < order()=Steps, and adams_moulton<Steps> for every polynomial of degree < order()=Steps+1. (The second claim is found to be violated: adams_moulton<Steps> has order Steps, one less than it reports.)",
  "all polynomials of the stated degree with coefficients in a field of characteristic 0, all t and dt, all Steps 1..8",
  "all polynomials and step sizes",
  ["stepper/detail/adams_bashforth_coefficients.hpp", "stepper/detail/adams_moulton_coefficients.hpp", "stepper/adams_moulton.hpp:adams_moulton::order"])
# ---------------------------------------------------------------- symplectic
p("C38", "Symplectic steppers are symplectic for every separable Hamiltonian",
  "one do_step of symplectic_euler, symplectic_rkn_sb3a_mclachlan, symplectic_rkn_sb3a_m4_mclachlan maps (q,p) by a composition of shears: it is a bijection of phase space whose inverse is obtained by undoing the sub-steps in reverse order, its derivative preserves the canonical symplectic form (hence volume) whenever the forces are gradients, and the sub-step coefficients add up to one in q and in p.",
  "all separable systems, phase-space dimensions, states, step sizes",
  "an identity for all Hamiltonians",
  ["stepper/base/symplectic_rkn_stepper_base.hpp:symplectic_nystroem_stepper_base", "stepper/symplectic_euler.hpp", "stepper/symplectic_rkn_sb3a_mclachlan.hpp", "stepper/symplectic_rkn_sb3a_m4_mclachlan.hpp"])
p("C39", "velocity_verlet is time reversible and caches the acceleration correctly",
  "for a velocity-independent acceleration a(q), a do_step with dt followed by a step with -dt restores (q,p) exactly (exact arithmetic); a sequence of steps using the cached acceleration gives the same states as steps that recompute it; each step is symplectic when a is a gradient.",
  "all systems a(q), states, step sizes, all step sequences",
  "identity for all systems; caching over all histories",
  ["stepper/velocity_verlet.hpp:velocity_verlet"])
# ---------------------------------------------------------------- extrapolation
p("C40", "Extrapolation eliminates the leading error terms",
  "if the midpoint results for the interval sequence n_0<...<n_k have the form T + sum_{j=1..k} e_j (dt/n_i)^(2j), the in-place tableau recursion used by bulirsch_stoer, bulirsch_stoer_dense_out and extrapolation_stepper returns exactly T; it is an affine combination (weights add up to 1), so equal inputs are reproduced.",
  "all k, all values T, e_j, dt (exact arithmetic), all interval sequences with distinct positive entries",
  "all error expansions and table sizes",
  ["stepper/extrapolation_stepper.hpp:extrapolation_stepper::extrapolate", "stepper/bulirsch_stoer.hpp:bulirsch_stoer::extrapolate", "stepper/bulirsch_stoer_dense_out.hpp:bulirsch_stoer_dense_out::extrapolate"])
p("C41", "modified_midpoint follows Gragg's scheme for every number of sub-steps",
  "modified_midpoint::do_step with m sub-steps evaluates f exactly m times beyond the given derivative and returns the smoothed leap-frog value; it is exact for right-hand sides that are polynomials of degree <= 1 in t, for every m>=1, and for linear systems and even m its result depends only on even powers of the sub-step size.",
  "all m >= 1 (even m for the last part), all systems, states, step sizes",
  "all m",
  ["stepper/modified_midpoint.hpp:modified_midpoint::do_step_impl", "stepper/modified_midpoint.hpp:modified_midpoint_dense_out::do_step"])
# ---------------------------------------------------------------- implicit
p("C42", "implicit_euler solves its defining equation",
  "when implicit_euler::do_step returns, the last Newton correction has norm <= epsilon; for a right-hand side linear in the state, f(x,t)=A(t) x + c(t), it always comes back and the result satisfies x1 = x0 + dt*(A x1 + c) exactly, at the end of the step; for one equation with a Lipschitz right-hand side the residual of x1 = x0 + dt*f(x1) is at most |dt| (|f_x| + C) epsilon; for x' = c x with Re c <= 0 a step does not increase |x| (A- and L-stability); an exception of the user's functions leaves x unchanged.",
  "all linear systems of any dimension, all states and step sizes; all Lipschitz scalar systems; every linear solver that fulfils its contract",
  "all matrices and right-hand sides",
  ["stepper/implicit_euler.hpp:implicit_euler::do_step"])
# ---------------------------------------------------------------- algebra & utilities
p("C43", "Algebras apply an operation to every component exactly once, aliasing included",
  "algebra.for_eachN(s1,...,sN,op) applies op to the i-th components for every i, exactly once, in order; with scale_sum operations the result is the stated linear combination computed from the old component values even if the output container is also one of the inputs; norm_inf is the maximum of the absolute values (0 for an empty state).",
  "all lengths, all contents, all aliasing patterns",
  "unbounded length, all aliasing patterns",
  ["algebra/detail/for_each.hpp:for_each", "algebra/range_algebra.hpp:range_algebra", "algebra/array_algebra.hpp", "algebra/default_operations.hpp:scale_sum", "algebra/default_operations.hpp:scale_sum_swap2"])
p("C44", "Parallel algebras give the sequential result for every schedule",
  "the OpenMP range algebra and nested algebra produce the same state as the sequential algebra for every assignment of components to threads and every interleaving of the component operations (outputs and inputs not overlapping across components).",
  "all lengths, all thread interleavings/schedules",
  "schedules cannot be enumerated by tests",
  ["external/openmp/openmp_range_algebra.hpp:openmp_range_algebra", "external/openmp/openmp_nested_algebra.hpp:openmp_nested_algebra"])
p("C45", "split and unsplit are inverse and slices form a balanced partition",
  "split_offsets(n,i,parts) yields contiguous slices that start at 0, end at n, follow each other without gap or overlap and differ in length by at most one; splitting a vector into an openmp_state (or over MPI ranks) and unsplitting it returns the original vector, for every number of parts >= 1.",
  "all lengths, all numbers of parts",
  "remainder arithmetic for all sizes",
  ["util/split_adaptor.hpp:detail::split_offsets", "external/openmp/openmp_state.hpp:split_impl", "external/openmp/openmp_state.hpp:unsplit_impl", "external/mpi/mpi_vector_state.hpp:split_impl"])
p("C46", "Resizing policies do what they promise",
  "with always_resizer the stepper's temporaries have the size of the state in every call; with initially_resizer they are sized at the first call (and by adjust_size) and never touched otherwise; with never_resizer only by adjust_size; a resize happens only when the sizes differ, and temporaries of matching size are left alone.",
  "all sequences of calls with states of arbitrary sizes",
  "all call histories with changing sizes",
  ["util/resizer.hpp:always_resizer", "util/resizer.hpp:initially_resizer", "util/resizer.hpp:never_resizer", "util/resizer.hpp:adjust_size_by_resizeability", "util/same_size.hpp", "util/resize.hpp"])
p("C47", "Linear problems: a step is multiplication by the stability polynomial",
  "for x' = A x one do_step of each explicit Runge-Kutta stepper multiplies the state by a fixed polynomial in dt*A; for runge_kutta4 it is 1+z+z^2/2+z^3/6+z^4/24, and linear first integrals (l with l*f = 0) are preserved exactly by every Runge-Kutta, Adams and extrapolation step.",
  "all linear maps A (any dimension), all states, step sizes; all linear invariants of arbitrary systems",
  "all systems",
  ["stepper/runge_kutta4.hpp", "stepper/runge_kutta_dopri5.hpp", "stepper/runge_kutta_cash_karp54.hpp", "stepper/runge_kutta_fehlberg78.hpp", "stepper/adams_bashforth.hpp"])
p("C48", "Steps commute with linear changes of coordinates and do not mix independent subsystems",
  "if L is a linear map and g(Lx,t) = L f(x,t), then a Runge-Kutta (or Euler, midpoint, Adams, extrapolation) step for g from L x is L applied to the step for f from x; consequently two uncoupled systems integrated together give the same result as integrated separately with the same step sizes.",
  "all linear maps between state spaces of any dimension, all systems, all tableaux",
  "all systems and coordinate changes",
  ["stepper/detail/generic_rk_algorithm.hpp:generic_rk_algorithm", "stepper/explicit_generic_rk.hpp:explicit_generic_rk"])
p("C49", "do_step is all-or-nothing when the system function throws",
  "if the right-hand side throws during do_step(sys,x,t,dt) of an explicit stepper or try_step(sys,x,t,dt) of a controlled stepper, the exception propagates and the caller's state x is unchanged, so the step can be repeated. (Found to be violated by runge_kutta_dopri5: its last evaluation of the right-hand side happens after x has been overwritten with the new state; by adams_bashforth, whose history of derivatives has already moved; and by the symplectic steppers and velocity_verlet, which move the coordinates before they evaluate the force.)",
  "all systems, all evaluation points at which the exception can occur, all states, times, step sizes",
  "every possible exception point in every stepper",
  ["stepper/base/explicit_stepper_base.hpp:explicit_stepper_base::do_step", "stepper/base/explicit_error_stepper_base.hpp:explicit_error_stepper_base::do_step", "stepper/runge_kutta_dopri5.hpp:runge_kutta_dopri5::do_step_impl"])
p("C50", "A step whose error estimate is not a number is not accepted",
  "if the error estimate of a trial step consists of NaNs (for instance because the right-hand side overflowed or returned NaN), try_step of a controlled stepper does not report success and does not write the NaN state to x. (Found to be violated by controlled_runge_kutta with the default error checker: the maximum norm ignores NaN, the weighted error becomes 0, the step is accepted and the step size is enlarged.)",
  "all state sizes, tolerances, steppers, and all value types whose comparisons with NaN are false",
  "all sizes and all ways a NaN can arise",
  ["stepper/controlled_runge_kutta.hpp:default_error_checker::error", "stepper/controlled_runge_kutta.hpp:controlled_runge_kutta::try_step", "algebra/detail/norm_inf.hpp:norm_inf"])
p("C51", "The fourth order symplectic steppers are time reversible",
  "for symplectic_rkn_sb3a_mclachlan and symplectic_rkn_sb3a_m4_mclachlan a do_step with -dt applied to the result of a do_step with dt gives back the original coordinates and momenta exactly (exact arithmetic), for every separable system; in-place and out-of-place stepping agree, and the version with one function (dq/dt = p) agrees with the version with two functions.",
  "all separable systems, states, step sizes",
  "all systems and states; a test checks single points up to rounding errors",
  ["stepper/base/symplectic_rkn_stepper_base.hpp:symplectic_nystroem_stepper_base::do_step", "stepper/symplectic_rkn_sb3a_mclachlan.hpp", "stepper/symplectic_rkn_sb3a_m4_mclachlan.hpp"])
p("C52", "rosenbrock4 is of fourth order also for systems that depend on the time",
  "for a right-hand side that is a polynomial of degree at most three in t, one do_step of rosenbrock4 with the default coefficients gives the exact solution up to the rounding of the tabulated coefficients. (Found to be violated: the coefficient d4 of the time derivative has the wrong sign, x' = t is integrated as 0.534 dt^2 instead of 0.5 dt^2, so the stepper is only of first order for systems that depend on the time.)",
  "all polynomials of degree three in the time with coefficients in a normed space, all states and step sizes",
  "a test on one system with a tolerance tuned to pass does not notice the wrong coefficient; the repository tests only autonomous systems",
  ["stepper/rosenbrock4.hpp:default_rosenbrock_coefficients", "stepper/rosenbrock4.hpp:rosenbrock4::do_step"])
p("C53", "rosenbrock4 is stable for decaying linear systems whatever the step size",
  "for x' = c x with a complex c in the closed left half plane a do_step of rosenbrock4 of any length dt > 0 does not increase |x| (A-stability), and |x| is reduced by a factor of at most 11/|1 - c dt/4|, which tends to zero as |c dt| grows (L-stability).",
  "all c with Re c <= 0, all x, all dt > 0",
  "an unbounded set of coefficients and step sizes; the inequality is tight at the imaginary axis",
  ["stepper/rosenbrock4.hpp:default_rosenbrock_coefficients", "stepper/rosenbrock4.hpp:rosenbrock4::do_step"])
p("C54", "Grid ranges over a dense output stepper visit exactly the grid, interpolated inside the containing step",
  "iterating over make_n_step_time_range, make_const_step_time_range or make_times_time_range with a dense output stepper yields first (start state, start time) and then every further grid time (start + k*dt for k<=n; start + k*dt not beyond the end time; each requested time) exactly once, in order; every yielded state is the value of calc_state for exactly that time, and the latest do_step before that call began before and ended not before that time (for times within eps of the start: no step was made); make_times_time_range never attempts a step whose proposed end is beyond the last requested time; const-step ranges whose end is before the start are empty.",
  "all dense output steppers fulfilling the concept in exact arithmetic (contents of calc_state arbitrary, calls may throw), all start/end times, grids, step sizes of either sign, tolerances eps, and all runs that return",
  "the relation between the stepper's own steps and the grid is unbounded: a test fixes one ratio of step size to grid spacing",
  ["include/boost/numeric/odeint/iterator/impl/n_step_iterator_impl.hpp: n_step_iterator_impl<dense_output_stepper_tag>", "include/boost/numeric/odeint/iterator/impl/const_step_iterator_impl.hpp: const_step_iterator_impl<dense_output_stepper_tag>", "include/boost/numeric/odeint/iterator/impl/times_iterator_impl.hpp: times_iterator_impl<dense_output_stepper_tag>"])

p("C55", "extrapolation_stepper<Order> has order Order, for every Order",
  "one step of extrapolation_stepper<Order> differs from the solution by O(dt^(Order+1)) for every sufficiently smooth right-hand side, and its error estimate is O(dt^(Order-1)); for x' = A x one step of extrapolation_stepper<Order> returns the Taylor polynomial of degree Order of exp(dt A) x plus one term of degree Order+1 whose coefficient is independent of the problem; for x' = g(t) with g the derivative of a polynomial of degree <= Order the step is exact; a step makes exactly 1 + 2 + 4 + ... + Order evaluations of the right-hand side.",
  "all even Order, all smooth right-hand sides, all linear maps on spaces of any dimension, all polynomials, states, step sizes",
  "all orders and problems",
  ["stepper/extrapolation_stepper.hpp:extrapolation_stepper", "stepper/modified_midpoint.hpp:modified_midpoint"])
p("C57", "The step adjuster of controlled_adams_bashforth_moulton accepts steps by their filtered error",
  "if dtmax does not limit the step, a try is accepted iff in every component the filtered error is at most 1/(1-tan(0.1)): in the first two steps the error (in units of the tolerance) to the power 0.7/k, later the product of the powers of the last three errors and two step ratios with the exponents of the coefficient set, divided by k, with k the order plus one; if the last errors equal the tolerance and the step was constant the step size is kept, for every coefficient set. An accepted step therefore does not meet the tolerance: its error may exceed it by any factor if the previous errors were small. With a negative dtmax every short step is accepted whatever its error; if all errors are NaN the step is accepted.",
  "all errors, tolerances, histories, coefficients, state sizes, step sizes",
  "real-valued histories; that the tolerance is not guaranteed shows only for particular histories",
  ["stepper/detail/pid_step_adjuster.hpp:pid_step_adjuster::adjust_stepsize", "stepper/detail/pid_step_adjuster.hpp:pid_op", "stepper/detail/pid_step_adjuster_coefficients.hpp"])
p("C59", "bulirsch_stoer_dense_out advances by the extrapolated midpoint rule and interpolates by extrapolated central differences",
  "every do_step of bulirsch_stoer_dense_out, at any point of any history, advances the time by the step it made and the state to the extrapolation to zero step size of Gragg's scheme with 2, 6, 10, ..., 2+4k intervals for some 1 <= k <= 8, a method of order 2k+2 whose error estimate is O(dt^(2k+1)); the stored derivative is the one at the current state; calc_state, for every time and until the next do_step or initialize, is the Taylor polynomial of degree 2k+2 around the middle of the step whose coefficients are the extrapolated midpoint values and central differences of the same sweeps. An exception leaves the current state unchanged.",
  "all right-hand sides, states, step sizes, histories of orders, and interpolation times; order for all k and all sufficiently smooth right-hand sides",
  "order and interpolation are polynomial identities over all data; the histories of orders are unbounded",
  ["stepper/bulirsch_stoer_dense_out.hpp:bulirsch_stoer_dense_out::do_step", "stepper/bulirsch_stoer_dense_out.hpp:bulirsch_stoer_dense_out::prepare_dense_output", "stepper/bulirsch_stoer_dense_out.hpp:bulirsch_stoer_dense_out::calculate_finite_difference", "stepper/bulirsch_stoer_dense_out.hpp:bulirsch_stoer_dense_out::do_interpolation"])
p("C60", "The interpolation of bulirsch_stoer_dense_out passes through the states at the ends of the step",
  "after a do_step, calc_state at previous_time() and current_time() gives previous_state() and current_state(). (Found to be violated: for x' = x with a step of size 1 both ends differ in the third decimal; it holds for constant right-hand sides.)",
  "all right-hand sides and step sizes",
  "a property of all right-hand sides",
  ["stepper/bulirsch_stoer_dense_out.hpp:bulirsch_stoer_dense_out::do_interpolation", "stepper/bulirsch_stoer_dense_out.hpp:bulirsch_stoer_dense_out::prepare_dense_output"])
p("C61", "implicit_euler makes its step whenever the equation of the step is regular",
  "do_step returns for every linear system for which 1 - dt*A is invertible. (Found to be violated for more than one equation: every correction after the first factorises the matrix again although it was replaced by its factors, and if the factors, read as a matrix, are singular the program is ended by exit(0); for x'=2x+y, y'=x+3y with dt=1 this happens.)",
  "all linear systems with an invertible matrix, all states",
  "a property of all matrices; the failure needs a particular one",
  ["stepper/implicit_euler.hpp:implicit_euler::solve", "stepper/implicit_euler.hpp:implicit_euler::do_step"])
p("C56", "The adaptive Adams steppers are variable step PECE methods",
  "after a reset or on a new stepper, and after initialize with an explicit stepper, steps of adaptive_adams_bashforth_moulton<Steps> in one direction with arbitrary step sizes are those of the predictor-corrector method of Adams: the prediction is x plus the integral over the step of the polynomial through the last k values of the derivative, the result is x plus the integral of the polynomial through these and the derivative at the predicted point, the error estimate is the difference of the two, with k = 1, 2, 3, ..., Steps in successive steps; the same holds for every try of controlled_adams_bashforth_moulton with the order k it has chosen, and rejected tries and tries that end with an exception leave no trace. In particular a step of order k is exact if the derivative is a polynomial of degree <= k in the time.",
  "all Steps, right-hand sides, states, sequences of step sizes in one direction, histories of earlier calls, step adjusters, exceptions",
  "the coefficients are computed by recurrences from the history of step sizes; their meaning is an identity over all histories",
  ["stepper/detail/adaptive_adams_coefficients.hpp:adaptive_adams_coefficients::predict", "stepper/detail/adaptive_adams_coefficients.hpp:adaptive_adams_coefficients::do_step", "stepper/detail/adaptive_adams_coefficients.hpp:adaptive_adams_coefficients::confirm", "stepper/adaptive_adams_bashforth_moulton.hpp:adaptive_adams_bashforth_moulton::do_step", "stepper/adaptive_adams_bashforth_moulton.hpp:adaptive_adams_bashforth_moulton::initialize", "stepper/controlled_adams_bashforth_moulton.hpp:controlled_adams_bashforth_moulton::try_step"])
p("C62", "initialize_controlled starts the controlled Adams stepper from the points the other stepper computed",
  "after initialize_controlled the next try is a PECE step from the points computed by the controlled stepper given. (Found to be violated: the size of the next step is stored instead of the size of the step taken, so the method uses wrong times whenever the other stepper changes its step size; it holds if the step size stays the same.)",
  "all controlled steppers, right-hand sides, states, step sizes",
  "the error depends on the history of step sizes",
  ["stepper/controlled_adams_bashforth_moulton.hpp:controlled_adams_bashforth_moulton::initialize_controlled"])
p("C63", "The integrate functions converge with the order of the stepper",
  "for a smooth right-hand side, integrate_n_steps, integrate_const and integrate_adaptive with a stepper of order() p return states that converge to the exact solution: every observed state and the final state differ from the solution at their time by at most C * ( error of the start state + |dt|^p ), with one constant C for all step sizes, start and end times in an interval, in both directions of time.",
  "all Runge-Kutta steppers (euler, runge_kutta4, runge_kutta4_classic, cash_karp54, cash_karp54_classic, fehlberg78, modified_midpoint, and an unused dopri5), right-hand sides p+1 times continuously differentiable and Lipschitz in the state, state spaces, start states, time intervals, step sizes up to 1, tolerances of time comparison",
  "a test samples some equations and step sizes; convergence is a statement about all step sizes at once",
  ["integrate/detail/integrate_const.hpp:integrate_const", "integrate/detail/integrate_adaptive.hpp:integrate_adaptive", "integrate/detail/integrate_n_steps.hpp:integrate_n_steps", "stepper/generation/generation_runge_kutta*.hpp"])
p("C64", "integrate_adaptive does not depend on earlier use of the stepper",
  "integrate_adaptive called with a stepper that was used before, and whose stored data fit the start state, gives the result it gives with a new stepper. (Found to be violated: the last, shorter step is made by the stepper that was passed in and not by the copy that made the other steps, so runge_kutta_dopri5 starts it from the derivative at the start time and convergence drops to first order. It holds for steppers without memory.)",
  "all steppers, memories, right-hand sides, times, step sizes",
  "depends on the use of the stepper before the call, and only shows in the accuracy of the last step",
  ["integrate/detail/integrate_adaptive.hpp:integrate_adaptive", "stepper/base/explicit_error_stepper_fsal_base.hpp:explicit_error_stepper_fsal_base::do_step"])
p("C65", "Integration with a controlled Runge-Kutta stepper is reliable",
  "integrate_adaptive, integrate_n_steps, integrate_const and integrate_times with controlled_runge_kutta (default error checker and step adjuster, with or without a limit for the step size, positive absolute tolerance) around cash_karp54, cash_karp54_classic, fehlberg78 or a fresh dopri5, for a smooth and Lipschitz continuous right-hand side: the call always ends; it returns, or it throws step_adjustment_error, and the latter only if the absolute tolerance is below a constant of the problem times 0.9^498. integrate_adaptive: all observations are connected by steps in the direction of dt whose weighted error estimate is at most one and which are not longer than the limit; the first is the start state, the last one is the returned state at the end time. The other functions observe exactly the grid or the requested times and return the last observed state. If no step is longer than H, all observed states differ from the exact solution by at most C*(initial error + H^p), with p the order of the stepper and C independent of tolerances, limits, step sizes, requested times and start state.",
  "all dimensions, right-hand sides, start states, time intervals, requested times, first step sizes (forward and backward), tolerances, step limits and memories of the stepper",
  "the number of tries and steps is not bounded in advance, and the constants must hold for all tolerances and start states at once",
  ["integrate/detail/integrate_adaptive.hpp:integrate_adaptive", "integrate/detail/integrate_n_steps.hpp:integrate_n_steps", "integrate/detail/integrate_const.hpp:integrate_const", "integrate/detail/integrate_times.hpp:integrate_times", "stepper/controlled_runge_kutta.hpp:controlled_runge_kutta", "stepper/controlled_runge_kutta.hpp:default_error_checker", "stepper/controlled_runge_kutta.hpp:default_step_adjuster", "integrate/max_step_checker.hpp:failed_step_checker"])
p("C66", "Integration with the dense output Dormand-Prince stepper is reliable at the requested times",
  "integrate_adaptive and integrate_times with dense_output_runge_kutta around controlled_runge_kutta< runge_kutta_dopri5 > (default error checker and step adjuster, with or without a limit for the step size, positive absolute tolerance), for a smooth and Lipschitz continuous right-hand side: every call ends; it returns, or it throws step_adjustment_error, and the latter only if the absolute tolerance is below a constant of the problem times 0.9^498. integrate_times observes exactly the requested times, in order and with repetitions, and returns the last observed state; integrate_adaptive observes the start state, then one state per accepted step, the last one at the end time. If steps are at most H long, every observed state, interpolated or not, differs from the exact solution at its time by at most C*(initial error + H^5), with C independent of tolerances, step sizes, requested times and start state.",
  "all dimensions, right-hand sides, start states, time intervals, lists of requested times, first step sizes (forward and backward), tolerances, step limits and previous contents of the stepper",
  "between two requested times any number of steps may be made and any number of requested times may fall into one step; the constants must hold for all of them at once",
  ["integrate/detail/integrate_times.hpp:integrate_times", "integrate/detail/integrate_adaptive.hpp:integrate_adaptive", "stepper/dense_output_runge_kutta.hpp:dense_output_runge_kutta", "stepper/runge_kutta_dopri5.hpp:calc_state", "stepper/controlled_runge_kutta.hpp:try_step"])
p("C67", "integrate_const with a step checker gives the same with and without an observer",
  "integrate_const with a max_step_checker returns the same state and number of steps whether or not an observer is passed, and in both cases the checker is active. (Found to be violated: with the null_observer the call becomes integrate_adaptive without checker. It then integrates to the end time instead of the last multiple of dt before it, and does not return where it would throw no_progress_error with any observer. For plain steppers whose last step ends at the end time it holds.)",
  "all steppers, observers, systems, times, step sizes, checker limits",
  "depends on the type of the observer and, for termination, on the behaviour of the stepper over unboundedly many steps",
  ["integrate/integrate_const.hpp:integrate_const", "integrate/check_adapter.hpp:checked_stepper"])
p("C68", "integrate, make_controlled and make_dense_output integrate reliably with the requested precision",
  "integrate( system , x , t0 , t1 , dt , observer ) and integrate_adaptive with make_controlled( abs , rel [ , max_dt ] , stepper ), for a smooth and Lipschitz continuous right-hand side: the call ends and returns the state at t1, or throws step_adjustment_error, the latter only if the absolute error bound (1e-6 for integrate) is below a constant of the problem times 0.9^498. Every observed step has an error estimate of at most abs + rel * ( |x_i| + |h f_i| ) in each component, steps are not longer than max_dt, and if no step is longer than H, all observed states differ from the exact solution by at most C*(initial error + H^p). integrate_times with make_dense_output observes exactly the requested times, with the same bound.",
  "all dimensions, right-hand sides, start states, time intervals, step sizes (forward and backward), error bounds, step limits",
  "constants must hold for all calls at once; the number of steps is not bounded in advance",
  ["integrate/integrate.hpp:integrate", "stepper/generation/make_controlled.hpp:make_controlled", "stepper/generation/make_dense_output.hpp:make_dense_output", "stepper/generation/generation_controlled_runge_kutta.hpp:controller_factory", "stepper/controlled_runge_kutta.hpp:default_error_checker"])
p("C69", "Adams-Bashforth and Adams-Bashforth-Moulton integrations converge with the order of the stepper",
  "adams_bashforth<N> and adams_bashforth_moulton<N>, new or after reset(), handed to integrate_n_steps, integrate_const or integrate_adaptive, converge with the order reported by order(): all observed states differ from the exact solution by at most C*(initial error + |dt|^N). With a Runge-Kutta stepper of order p as initialising stepper this holds with the order min(N,p+1). (Found to be violated for the default initialising steppers: adams_bashforth<N>, N>=2, is started by an extrapolation_stepper that is called in place and then makes steps that are too long, so that even x'=1 is integrated with an error of at least |dt|; adams_bashforth_moulton<N> is started by runge_kutta4, so for N>=6 only the order 5 is reached.)",
  "all smooth Lipschitz continuous right-hand sides, start states, time intervals, step sizes (forward and backward), N = 1..8",
  "an order is a statement about all step sizes and right-hand sides at once",
  ["stepper/adams_bashforth.hpp:adams_bashforth::do_step", "stepper/adams_bashforth.hpp:order_helper", "stepper/adams_bashforth_moulton.hpp:adams_bashforth_moulton::do_step", "stepper/extrapolation_stepper.hpp:do_step_impl", "integrate/integrate_n_steps.hpp:integrate_n_steps"])
p("C70", "extrapolation_stepper inside the integrate functions",
  "extrapolation_stepper<Order> handed to integrate_n_steps, integrate_const or integrate_adaptive converges to the exact solution with its order, and controlled_runge_kutta<extrapolation_stepper<Order>> in the adaptive integrate functions always returns, keeps its error tolerance at every accepted step and has an observed error of at most C*(initial error + H^Order) if the steps are at most H. (The second part is proved for every even Order >= 4. The first part is found to be violated: the integrate functions call do_step(sys,x,t,dt), which writes into x while still reading it, so that x'=1 moves by at least (Order/2)*dt in a step of size dt, and the integration does not converge at all.)",
  "all smooth Lipschitz continuous right-hand sides, start states, time intervals, step sizes, tolerances and orders",
  "an order is a statement about all step sizes and right-hand sides at once; the unit tests call the stepper out of place",
  ["stepper/extrapolation_stepper.hpp:do_step_impl", "stepper/extrapolation_stepper.hpp:do_step_impl_io", "stepper/controlled_runge_kutta.hpp:try_step", "integrate/integrate_n_steps.hpp:integrate_n_steps", "integrate/integrate_adaptive.hpp:integrate_adaptive"])
p("C71", "Integration with a fixed step size is robust against rounding errors",
  "In an arithmetic in which the result of every operation is rounded with relative or absolute accuracy u, integrate_n_steps and integrate_const with euler, runge_kutta4 (both implementations), runge_kutta_cash_karp54 (both implementations), runge_kutta_fehlberg78, modified_midpoint or runge_kutta_dopri5 always return, and every observed state is within C*(initial error + dt^order + u/dt) of the exact solution at t0 + k*dt, as long as this bound is at most 1. The observed times are within C*u of t0 + k*dt, and integrate_const stops at the last grid point not beyond the end time, up to C*u. C depends on the equation, the time interval and the accuracy of the system function, but not on the number format, the initial state, the step size or the number of steps; in particular the errors of the times do not add up.",
  "all number formats and roundings, smooth Lipschitz continuous right-hand sides of any dimension, system functions that compute them up to rounding errors, start states, time intervals, step sizes and numbers of steps",
  "a unit test runs one number format, one equation and a few step sizes; the bound must hold for all of them with a common constant",
  ["stepper/detail/generic_rk_algorithm.hpp:do_step", "stepper/runge_kutta_dopri5.hpp:do_step_impl", "stepper/runge_kutta4_classic.hpp:do_step_impl", "stepper/runge_kutta_cash_karp54_classic.hpp:do_step_impl", "stepper/modified_midpoint.hpp:do_step_impl", "integrate/detail/integrate_n_steps.hpp:integrate_n_steps", "integrate/detail/integrate_const.hpp:integrate_const", "util/detail/less_with_sign.hpp:less_eq_with_sign"])
p("C72", "The steppers for Hamiltonian systems have their order, and integration with them converges",
  "For a separable system dq/dt = f(p), dp/dt = g(q) one step of symplectic_euler differs from the exact solution by O(dt^2) and one step of symplectic_rkn_sb3a_m4_mclachlan by O(dt^5); for symplectic_rkn_sb3a_mclachlan, whose coefficients are rounded decimals, the local error is O(dt^3) and there are coefficients within 4e-20 of them with local error O(dt^5). One step of velocity_verlet for dq/dt = p, dp/dt = a(q,t) differs from the solution by O(dt^3), better than its order() of 1 promises. integrate_n_steps, integrate_const and integrate_adaptive with these steppers converge with order 1, 4, 2 and 2: on every time interval all observed states are within C*(initial error + dt^order) of the solution. If the acceleration passed to velocity_verlet depends on the velocity, the order is only 1.",
  "all smooth Lipschitz continuous separable systems of any dimension, start states, time intervals, directions, step sizes and numbers of steps",
  "an order is a limit statement over all step sizes and all systems; a test observes a few runs",
  ["stepper/base/symplectic_rkn_stepper_base.hpp:do_step", "stepper/symplectic_euler.hpp:symplectic_euler", "stepper/symplectic_rkn_sb3a_mclachlan.hpp:symplectic_rkn_sb3a_mclachlan", "stepper/symplectic_rkn_sb3a_m4_mclachlan.hpp:symplectic_rkn_sb3a_m4_mclachlan", "stepper/velocity_verlet.hpp:do_step", "integrate/detail/integrate_n_steps.hpp:integrate_n_steps", "integrate/detail/integrate_const.hpp:integrate_const", "integrate/detail/integrate_adaptive.hpp:integrate_adaptive"])
p("C73", "integrate_adaptive and integrate_times come to an end in floating point arithmetic",
  "With times in a floating point format, integrate_adaptive and integrate_times return (or throw) for every stepper whose step sizes do not become too small for the format; with a controlled stepper the last observed time is the end time up to 2*eps and a few roundings; integrate_const and integrate_adaptive with a basic stepper return for every step size, even for steps that do not change the time. (Proved for integrate_times, for integrate_adaptive with basic and controlled steppers and all times, and for integrate_adaptive with dense output steppers if the times are at most 1/2 in double precision. Found to be violated for integrate_adaptive with dense output steppers and larger times: integrate_adaptive(stepper, system, x, -1.3, 7.0, 10.0, observer) runs forever with every dense output stepper, because -1.3 + (7.0 - -1.3) is rounded to a number beyond 7 + eps, and the last step is shortened again and again instead of being made.)",
  "all floating point formats with at least 4 binary digits, start and end times, directions, steppers whose step sizes are bounded from below, and observers",
  "the loop conditions compare rounded times; whether some of the 2^128 pairs of times makes a loop run forever cannot be found by running a few",
  ["integrate/detail/integrate_adaptive.hpp:integrate_adaptive", "integrate/detail/integrate_times.hpp:integrate_times", "integrate/detail/integrate_const.hpp:integrate_const", "util/detail/less_with_sign.hpp:less_with_sign", "util/detail/less_with_sign.hpp:less_eq_with_sign"])
p("C74", "The unit and the origin of time do not matter",
  "Measuring times in another unit and from another origin (c*t+b instead of t, c*dt instead of dt, and the system function divided by c) does not change what the integrate functions do: they make the same steps, observe the same states at the rescaled times, return the same and throw the same exceptions. (Proved for all integrate functions and all steppers if the tolerance of the time comparisons is measured in the new unit as well, and for one step of each explicit stepper. Found to be violated by the code, because the tolerance is std::numeric_limits<double>::epsilon() in every unit: integrate_const over ten steps of 1.4e-17 makes 26 steps and returns the state at 2.6 times the end time, and intervals up to 2.2e-16 are not integrated at all by integrate_adaptive.)",
  "all scale factors c > 0 and offsets b, steppers, systems, start and end times, step sizes, sequences of times and numbers of steps",
  "a relation between two runs for all units; unit tests use times of the order of one",
  ["util/detail/less_with_sign.hpp:less_with_sign", "util/detail/less_with_sign.hpp:less_eq_with_sign", "integrate/detail/integrate_const.hpp:integrate_const", "integrate/detail/integrate_adaptive.hpp:integrate_adaptive", "integrate/detail/integrate_times.hpp:integrate_times", "integrate/detail/integrate_n_steps.hpp:integrate_n_steps"])
p("C75", "The integrate functions built on the iterators do what the other integrate functions do",
  "A program that includes the headers in iterator/integrate instead of those in integrate gets the same observer calls, the same state in start_state and the same return values from integrate_const, integrate_n_steps, integrate_adaptive and integrate_times. (Proved for integrate_const, integrate_n_steps and integrate_adaptive with plain steppers and for integrate_adaptive with controlled steppers, if the end is not before the start; for integrate_times with plain steppers up to the return value; for the observer calls of integrate_adaptive with dense output steppers. Found to be violated in these respects: integrate_adaptive with a dense output stepper, and integrate_const with a dense output stepper and no observer, leave start_state as it was; integrate_const and integrate_n_steps with a controlled stepper start every interval with the first step size again and integrate_const returns the number of intervals; integrate_times returns the number of intervals instead of the number of steps; if the end is before the start nothing is observed and 2^64-1 is returned.)",
  "all steppers, systems, observers, states, times, step sizes and numbers of steps",
  "equality of two unbounded loops for all inputs",
  ["iterator/integrate/detail/integrate_const.hpp:integrate_const", "iterator/integrate/detail/integrate_adaptive.hpp:integrate_adaptive", "iterator/integrate/detail/integrate_n_steps.hpp:integrate_n_steps", "iterator/integrate/detail/integrate_times.hpp:integrate_times", "iterator/integrate/integrate_const.hpp:integrate_const", "iterator/integrate/detail/functors.hpp:obs_caller"])
p("C76", "Conservation laws hold exactly in whole integrations",
  "If a linear quantity (total mass, total momentum) is not changed by any derivative the system function returns, then every state the observer sees and the final state have the same value of it as the start state, in integrate_n_steps, integrate_const, integrate_adaptive and integrate_times, with every explicit stepper, runge_kutta_dopri5, and their controlled versions with any error checker and step adjuster, even if the integration is ended by an exception. It also holds with adams_bashforth, adams_bashforth_moulton and bulirsch_stoer, with rosenbrock4 and rosenbrock4_controller if the Jacobian respects the law and the linear systems are solved exactly, and with the dense output of runge_kutta_dopri5 and rosenbrock4 for the interpolated states, unless the integrate function calls calc_state before the first step. With the symplectic steppers the same holds for quantities that are linear in q and linear in p, like the angular momentum, if both functions of the system conserve them, and with velocity_verlet for such quantities that vanish for q parallel to v, even if the acceleration depends on the velocity.",
  "all systems, linear and bilinear quantities, steppers, coefficients, start states, times, step sizes, numbers of steps and arithmetic of the times",
  "the number of steps is unbounded and the system is arbitrary",
  ["integrate/detail/integrate_const.hpp:integrate_const", "integrate/detail/integrate_n_steps.hpp:integrate_n_steps", "integrate/detail/integrate_adaptive.hpp:integrate_adaptive", "integrate/detail/integrate_times.hpp:integrate_times", "stepper/base/symplectic_rkn_stepper_base.hpp:do_step_impl", "stepper/velocity_verlet.hpp:do_step", "stepper/controlled_runge_kutta.hpp:try_step", "stepper/base/explicit_stepper_base.hpp:do_step", "stepper/dense_output_runge_kutta.hpp:do_step", "stepper/dense_output_runge_kutta.hpp:calc_state", "stepper/adams_bashforth.hpp:do_step", "stepper/adams_bashforth_moulton.hpp:do_step", "stepper/bulirsch_stoer.hpp:try_step", "stepper/bulirsch_stoer.hpp:extrapolate", "stepper/rosenbrock4.hpp:do_step", "stepper/rosenbrock4_controller.hpp:try_step", "stepper/rosenbrock4_dense_output.hpp:calc_state"])
p("C77", "The operations and norms for other libraries compute the same as the default ones",
  "A stepper that is used with mkl_operations, thrust_operations, compute_operations or the vector_space_algebra for matrices computes the same linear combinations, the same error and the same norm as with default_operations and range_algebra, whatever the order in which a parallel reduction combines the components. (Proved for the linear combinations of mkl_operations, with the same roundings, if the output is none of the summands but the first; for the norm of thrust_algebra up to its sign, for every order of the reduction; for the error of controlled steppers with thrust and Boost.Compute if the state is not negative. Found to be violated: with MKL, out = in + dt*dxdt is wrong if out is the variable dxdt; with thrust the norm of (-3) is -3; in rel_error of thrust and Boost.Compute a parenthesis is misplaced, abs(x + a*abs(dxdt)) instead of abs(x) + a*abs(dxdt), so that steps with small errors are rejected where the state is negative, and for a_x other than 1 steps with large errors are accepted; the norm of a ublas::matrix is the largest sum of a row and not the largest element.)",
  "all states, coefficients, tolerances, aliasing of the arguments, and orders of a parallel reduction",
  "the adapters are alternative implementations of the same functions that must agree for all arguments; the reduction's order is not under the test's control",
  ["external/mkl/mkl_operations.hpp:scale_sum2", "external/mkl/mkl_operations.hpp:scale_sum5", "external/thrust/thrust_operations.hpp:rel_error", "external/thrust/thrust_algebra.hpp:norm_inf", "external/thrust/thrust_algebra.hpp:maximum", "external/compute/compute_operations.hpp:rel_error", "util/ublas_wrapper.hpp:vector_space_norm_inf"])
p("C78", "implicit_euler_mtl4 solves the equation of the implicit Euler method",
  "do_step of implicit_euler_mtl4 returns a state y with y = x + dt*f(y,t+dt) up to the tolerance given to the constructor, and leaves the state unchanged if the system function or the Jacobian throws. (Proved for systems that are linear in the state: the error of the equation is exactly the residual of the linear solver. For all systems the step is the first Newton iteration of implicit_euler. Found to be violated for other systems: the tolerance is never used, and for dx/dt = x^2 the equation is missed by any amount.)",
  "all systems, states, times, step sizes, dimensions, and linear solvers",
  "the equation must hold for every system and state; tests compare a few values for a linear system",
  ["external/mtl4/implicit_euler_mtl4.hpp:do_step", "external/mtl4/implicit_euler_mtl4.hpp:solve", "external/mtl4/implicit_euler_mtl4.hpp:implicit_euler_mtl4"])
p("C79", "Steppers with gsl_vector* states own their temporary vectors",
  "Whatever a program does with steppers whose state type is gsl_vector* (construct, copy, assign, resize, destroy, in any order the language allows), every temporary state has its own vector of the right size, no vector is used after it was freed or freed twice, and none is left when all steppers are destroyed. Loops over gsl_vector visit every element once, whatever the stride. (Proved for histories without copies and assignments, and for the iterators. Found to be violated for copies: the copy constructor of state_wrapper<gsl_vector*> frees an uninitialised pointer, and there is no assignment operator, so that after an assignment a vector is lost and another one is freed twice; the integrate functions copy the stepper.)",
  "all histories of construction, copying, assignment, resizing and destruction of any number of objects; all sizes and strides",
  "memory errors depend on the history of the objects and need not have a visible effect in a test",
  ["external/gsl/gsl_wrapper.hpp:state_wrapper", "external/gsl/gsl_wrapper.hpp:resize_impl", "external/gsl/gsl_wrapper.hpp:gsl_vector_iterator", "external/gsl/gsl_wrapper.hpp:end_iterator"])
p("C80", "An integration can be interrupted and continued",
  "With a stepper that has no memory, or one handed over by reference, integrating from t0 to t1 and then from the state and time reached on to t2 gives the same final state, the same step counts in total, the same calls of the system function, the same exceptions and the same observations (the point of interruption is observed twice) as integrating from t0 to t2 at once. For integrate_n_steps, integrate_const and integrate_times with any point of interruption, for integrate_adaptive when the interruption is at a grid point. (The integrate functions copy the stepper: adams_bashforth handed over by value restarts its history, and the results differ.)",
  "all systems, memoryless steppers, states, start, interruption and end times, step sizes of either sign, observers' histories, and behaviours of the system function including exceptions",
  "equality of two different schedules of calls, for every system and every point of interruption",
  ["integrate/detail/integrate_n_steps.hpp:integrate_n_steps", "integrate/detail/integrate_const.hpp:integrate_const", "integrate/detail/integrate_adaptive.hpp:integrate_adaptive", "integrate/detail/integrate_times.hpp:integrate_times", "stepper/adams_bashforth.hpp:do_step"])
p("C81", "Integration with implicit_euler converges",
  "For every continuously differentiable right-hand side that is Lipschitz in the state, every bounded function used as its Jacobian and every positive tolerance of the Newton iteration, integrate_n_steps, integrate_const and integrate_adaptive with implicit_euler and ublas return, if the step size is small enough, and all observed states and the final state differ from the solution at most by C ( |x0 - solution(t0)| + |dt| ). The Newton iteration ends in every step, the matrix is never found to be singular, and exit is not called.",
  "all dimensions, systems, intervals, start states within any distance of the solution, step sizes of either sign up to a bound that depends on these, tolerances of the Newton iteration and of the comparisons of times",
  "a limit for step size to zero, for every system, through every iteration of the Newton loop",
  ["stepper/implicit_euler.hpp:do_step", "stepper/implicit_euler.hpp:solve", "integrate/detail/integrate_n_steps.hpp:integrate_n_steps", "integrate/detail/integrate_const.hpp:integrate_const", "integrate/detail/integrate_adaptive.hpp:integrate_adaptive"])
p("C82", "rosenbrock4 has the advertised orders for nonlinear systems",
  "for a smooth right-hand side that does not depend on the time, with the exact Jacobian, one do_step of rosenbrock4 of size h leads to a state that differs from the exact solution by O(h^5), the error estimate is O(h^4) and the dense output differs from the exact solution by O(h^4) uniformly on the step, up to multiples of 1e-14 (1e-13 for the dense output) of the elementary differentials, which stem from the rounding of the tabulated coefficients.",
  "all right-hand sides that are four times continuously differentiable, in any Banach space, all initial values, all linear solvers that solve exactly, all small step sizes",
  "tests look at a few equations; the order conditions of all trees are needed for an arbitrary right-hand side",
  ["stepper/rosenbrock4.hpp:default_rosenbrock_coefficients", "stepper/rosenbrock4.hpp:rosenbrock4::do_step", "stepper/rosenbrock4.hpp:rosenbrock4::calc_state", "stepper/rosenbrock4.hpp:rosenbrock4::prepare_dense_output"])

p("C83", "The right-hand side is evaluated only between start and end of an integration",
  "A right-hand side may be defined only for the times of the integration (a table of measured data, a square root of the time, a singularity after the end). One call of do_step or try_step from t with step size dt uses the system function only at times between t and t + dt, in either direction, also if the trial is rejected; rosenbrock4 uses the Jacobian only at t; velocity_verlet uses the acceleration only at both ends; implicit_euler uses system function and Jacobian only at t + dt. integrate_n_steps uses it only between t0 and t0 + n dt, integrate_const and integrate_adaptive only between start and end time (up to the tolerance in comparing times), integrate_times only between the first and the last requested time. What the system function would do at other times - return other values, throw, crash - makes no difference for the call.",
  "every pair of system functions that agree on the interval, every state of the stepper, every start, end and step size of either sign, every observer, every error checker, and every step adjuster that keeps the direction",
  "A test evaluates one system function on one interval; the statement is about all functions and about the absence of evaluations, in all trials of all step sizes.",
  ["integrate/detail/integrate_const.hpp:integrate_const", "integrate/detail/integrate_adaptive.hpp:integrate_adaptive", "integrate/detail/integrate_times.hpp:integrate_times", "integrate/detail/integrate_n_steps.hpp:integrate_n_steps", "stepper/generation/make_controlled.hpp:make_controlled", "stepper/runge_kutta_dopri5.hpp:do_step_impl"])

p("C84", "The number of evaluations of the right-hand side is the documented one",
  "The evaluation of the right-hand side is usually what an integration costs. do_step evaluates it once for each stage of the method (euler 1, runge_kutta4 4, Cash-Karp 6, Fehlberg 13, modified_midpoint with m intervals m + 1), one time less if the caller supplies the derivative, and the error estimate is free. runge_kutta_dopri5 needs six evaluations for a step because it reuses the last stage, and one more in the first step after construction, reset or a change of size. adams_bashforth of any order needs one evaluation for a step and adams_bashforth_moulton two, once the initialising steps are done. rosenbrock4 needs six evaluations and one Jacobian, also in each trial of its controller and of its dense output, velocity_verlet one evaluation, a symplectic stepper one of each function for a stage. A trial of a controlled stepper costs as much as a step, whether it is accepted or not. A trial of bulirsch_stoer costs as much as a step of extrapolation_stepper of some even order from 4 to 18. With dense output of runge_kutta_dopri5, do_step costs six evaluations for a trial and one more after initialize; initialize and the interpolation are free. The integrate functions make no evaluations besides those of the steps they report; with a controlled stepper or dense output, no more than 500 trials for a step.",
  "every system function (whatever it returns, also depending on the number of former calls), every memory of the stepper, every tableau, every number of steps and intervals, every error checker and adjuster, every quiet observer, every arithmetic of times",
  "A test counts the calls for one stepper and one interval; a missed reuse or an additional evaluation in some state of the stepper is an efficiency bug that gives correct numbers.",
  ["stepper/base/explicit_stepper_base.hpp:do_step", "stepper/base/explicit_error_stepper_fsal_base.hpp:do_step", "stepper/adams_bashforth.hpp:do_step_impl", "stepper/adams_bashforth_moulton.hpp:do_step_impl2", "stepper/velocity_verlet.hpp:do_step", "stepper/rosenbrock4.hpp:do_step", "stepper/controlled_runge_kutta.hpp:try_step", "integrate/detail/integrate_adaptive.hpp:integrate_adaptive", "integrate/max_step_checker.hpp:failed_step_checker"])

p("C85", "The units of the state and the order of its components do not matter",
  "A user may measure the state in other units (millimetres instead of metres), renumber its components, duplicate components, or apply any other map that commutes with linear combinations. If the right-hand side is transformed accordingly and, for controlled steppers and dense output, the error checker returns the same numbers in the new coordinates, then integrate_n_steps, integrate_const, integrate_adaptive and integrate_times make the same steps, call the observer at the same times with the transformed states, return the transformed state, the same number of steps and the same time and step size, and throw the same exceptions. With the default error checker it is enough to measure the absolute tolerance in the new unit; if the components get different units, to use the absolute tolerance zero.",
  "every system function and its image, every map that commutes with linear combinations, every state of the stepper, every start, end, step size and list of times, every arithmetic of times and values, every explicit, FSAL, multistep and controlled Runge-Kutta stepper and dense output with runge_kutta_dopri5",
  "A test compares two runs of one system; the statement is about all systems and about every trial of the step size control, and an absolute threshold hidden anywhere in the library would violate it only in some units.",
  ["stepper/controlled_runge_kutta.hpp:default_error_checker", "stepper/controlled_runge_kutta.hpp:try_step", "stepper/dense_output_runge_kutta.hpp:do_step", "integrate/detail/integrate_adaptive.hpp:integrate_adaptive", "integrate/detail/integrate_const.hpp:integrate_const", "integrate/detail/integrate_times.hpp:integrate_times", "integrate/detail/integrate_n_steps.hpp:integrate_n_steps"])

p("C86", "After an exception the caller's state is the last observed one, and the integration can be taken up from there",
  "If the system function or the observer throws during integrate_n_steps, integrate_const or integrate_adaptive, the caller's state variable then holds the state the observer was called with last (or was being called with), so the observed time and the variable belong together. With an explicit Runge-Kutta stepper and exact times, calling the same function again from this state and the observed time, with the remaining number of steps or the same end time, gives the final state (and for integrate_n_steps the final time) of an integration that never failed, whatever the failed call left inside the stepper.",
  "every system function and observer and every call of them that throws, every explicit Runge-Kutta stepper, every controlled stepper (integrate_adaptive), every state of the stepper, every start, end, step size and number of steps",
  "The exception can come from any evaluation of any stage of any step or from any call of the observer; a test throws at one of them.",
  ["integrate/detail/integrate_n_steps.hpp:integrate_n_steps", "integrate/detail/integrate_const.hpp:integrate_const", "integrate/detail/integrate_adaptive.hpp:integrate_adaptive", "integrate/detail/integrate_times.hpp:integrate_times", "stepper/base/explicit_stepper_base.hpp:do_step", "stepper/controlled_runge_kutta.hpp:try_step", "stepper/base/explicit_error_stepper_fsal_base.hpp:do_step"])

p("C87", "implicit_euler is stable for dissipative systems, whatever the step size",
  "If solutions of the system never move apart, then neither do integrations with implicit_euler, for every positive step size, however stiff the system is: for systems that are linear in the state, two calls of integrate_n_steps, integrate_const or integrate_adaptive over the same interval that both return have observed the same times, and the Euclidean distance of the observed states never grows from one observation to the next. For one equation with any right-hand side that does not increase with the state, the distance grows by at most 2 ( 2 + B dt ) epsilon per step, where epsilon is the tolerance given to the stepper and B a bound of the derivative. With implicit_euler_mtl4 and systems that are linear in the state the distance grows by at most twice the residual of the linear solver. (Explicit steppers do not have this property, and implicit_euler_mtl4 does not have it for nonlinear systems.)",
  "every dissipative right-hand side as above, every pair of start states, every positive step size, every interval and number of steps, every linear solver with the stated contract",
  "Stability is a statement about all stiff systems and all step sizes; a test integrates one of them with one step size.",
  ["stepper/implicit_euler.hpp:do_step", "stepper/implicit_euler.hpp:solve", "external/mtl4/implicit_euler_mtl4.hpp:do_step", "integrate/detail/integrate_const.hpp:integrate_const", "integrate/detail/integrate_n_steps.hpp:integrate_n_steps", "integrate/detail/integrate_adaptive.hpp:integrate_adaptive"])

p("C88", "Whole integrations of Hamiltonian systems are symplectic, preserve volume and can be undone",
  "For every separable Hamiltonian T(p) + U(q), the state that integrate_n_steps, integrate_const or integrate_adaptive returns with a symplectic stepper or with velocity_verlet (also for potentials that depend on the time), and every state that is observed, is a symplectic and invertible function of the start state. For all right-hand sides dq/dt = f(p), dp/dt = g(q), Hamiltonian or not, a set of start states keeps its volume. With the two fourth-order symplectic steppers and with velocity_verlet (accelerations that do not depend on the velocity), integrating forward and then back with integrate_n_steps or integrate_const, with another stepper object, returns exactly to the start, and the observer sees the same states in reverse order. (symplectic_euler does not have the last property.)",
  "every separable Hamiltonian in any number of dimensions, every list of coefficients, every start state, interval, step size of either sign and number of steps, every right-hand side (with side effects)",
  "A test checks the energy drift of one orbit; symplecticity is a statement about the derivative with respect to all start states, and the integrate functions add the times, the last shorter step and the stored acceleration.",
  ["stepper/base/symplectic_rkn_stepper_base.hpp:do_step", "stepper/symplectic_rkn_sb3a_mclachlan.hpp", "stepper/symplectic_rkn_sb3a_m4_mclachlan.hpp", "stepper/velocity_verlet.hpp:do_step", "integrate/detail/integrate_const.hpp:integrate_const", "integrate/detail/integrate_n_steps.hpp:integrate_n_steps", "integrate/detail/integrate_adaptive.hpp:integrate_adaptive"])

p("C89", "Integrating the variational equations gives exactly the derivative of the numerical solution",
  "Lyapunov exponents and sensitivities are computed by integrating a system together with its linearisation for a number of perturbations (examples/chaotic_system.cpp). With every explicit stepper and runge_kutta_dopri5, and with integrate_n_steps, integrate_const and integrate_adaptive, this integration makes the same steps at the same times as one of the system alone, the states of the system agree, and the perturbations are at every observation exactly the directional derivatives of the observed state with respect to the start state: linearising the numerical method and applying the method to the linearised system are the same.",
  "every right-hand side that is differentiable with respect to the state, every number of perturbations, every start state and perturbations, every interval, step size and number of steps, every tableau",
  "A test compares with difference quotients, up to their error, for one system.",
  ["stepper/base/explicit_stepper_base.hpp:do_step", "stepper/explicit_generic_rk.hpp:do_step_impl", "stepper/runge_kutta_dopri5.hpp:do_step_impl", "stepper/modified_midpoint.hpp:do_step_impl", "integrate/detail/integrate_n_steps.hpp:integrate_n_steps", "integrate/detail/integrate_const.hpp:integrate_const", "integrate/detail/integrate_adaptive.hpp:integrate_adaptive"])

p("C90", "Integrations with rosenbrock4 converge with order four",
  "When a system whose right-hand side does not depend on the time is integrated with rosenbrock4 and integrate_n_steps, integrate_const or integrate_adaptive, with a given step size, then for all step sizes up to some h0 the call returns and all observed states and the final state differ from the exact solution at their time by at most C ( |error of the start state| + |dt|^4 ) plus an explicit error of the size 10^-13, which comes from the coefficients of the method being tabulated with sixteen digits and does not grow with the number of steps.",
  "every right-hand side that is six times continuously differentiable and Lipschitz continuous, in every finite dimension, every solution, every interval, every start state near the solution, every step size up to h0 in both directions, every linear solver that solves the regular systems",
  "A test observes the error of one solution for a few step sizes.",
  ["stepper/rosenbrock4.hpp:do_step", "stepper/rosenbrock4.hpp:default_rosenbrock_coefficients", "integrate/detail/integrate_n_steps.hpp:integrate_n_steps", "integrate/detail/integrate_const.hpp:integrate_const", "integrate/detail/integrate_adaptive.hpp:integrate_adaptive"])

p("C91", "Distributed integrations do not deadlock and compute what one process computes",
  "When a state is distributed over the nodes of MPI_COMM_WORLD (mpi_state), the system function of every node gathers the whole state and computes the local part of the derivative, and all nodes call the same integrate function with a plain stepper or a controlled Runge-Kutta stepper (default error checker and step adjuster), then in whatever order the nodes make progress there is no deadlock and no mismatch of collective operations, and the call ends on all nodes if it ends for one process with the whole state: with the same exception, or with the same time, step size and number of steps, and each node returns and observes exactly its part of the states, at the same times.",
  "every number of nodes, every distribution of the components over the nodes, every right-hand side, every tolerance and limit of the step size, every stepper, every arithmetic whose comparison is a linear order, every integrate function, every schedule of the nodes",
  "A test runs with few nodes and whatever schedule happens; a node that decides differently about one step only deadlocks for particular states.",
  ["external/mpi/mpi_nested_algebra.hpp:norm_inf", "external/mpi/mpi_state.hpp:mpi_state", "stepper/controlled_runge_kutta.hpp:try_step", "integrate/detail/integrate_adaptive.hpp:integrate_adaptive", "integrate/detail/integrate_times.hpp:integrate_times"])

p("C92", "A distributed integration communicates over the communicator of the state only",
  "When a state with a communicator (mpi_state constructed from a communicator) is integrated by the processes of this communicator, only these processes take part in the collective operations of the library, so that other processes can do something else.",
  "every communicator, every state, every controlled Runge-Kutta stepper",
  "Tests use MPI_COMM_WORLD, for which this holds trivially.",
  ["external/mpi/mpi_state.hpp:mpi_state", "external/mpi/mpi_state.hpp:resize_impl", "external/mpi/mpi_nested_algebra.hpp:norm_inf", "stepper/controlled_runge_kutta.hpp:resize_m_xerr_impl"])

p("C93", "Integrations with rosenbrock4_controller are reliable",
  "When a system whose right-hand side does not depend on the time is integrated with rosenbrock4_controller and integrate_adaptive, integrate_n_steps, integrate_const or integrate_times, with any tolerances, any first step size and a limit of the step size up to some h0, new or used before, then the call always ends: it returns, or it throws step_adjustment_error, the latter only if the absolute tolerance is below a constant times 0.9^498. All observed states of integrate_adaptive are connected by steps of rosenbrock4 in the direction of dt whose error measure is at most one and that are not longer than the limit, the last one is the returned state at the end time; the others observe exactly the requested times. All observed states differ from the exact solution by at most C ( |error of the start state| + H^4 ), if no step is longer than H, plus an explicit error of the size 10^-13 (see C90).",
  "every right-hand side that is six times continuously differentiable and Lipschitz continuous, in every dimension, every solution, every interval, every start state near the solution, every absolute tolerance > 0 and relative tolerance >= 0, every limit up to h0, every first step size in both directions, every history of the controller, every linear solver that solves the regular systems",
  "A test runs a few systems with a few tolerances; that the predictive controller can never decrease the step size forever concerns all of its histories.",
  ["stepper/rosenbrock4_controller.hpp:try_step", "stepper/rosenbrock4_controller.hpp:error", "integrate/detail/integrate_adaptive.hpp:integrate_adaptive", "integrate/detail/integrate_n_steps.hpp:integrate_n_steps", "integrate/detail/integrate_const.hpp:integrate_const", "integrate/detail/integrate_times.hpp:integrate_times"])

p("C94", "Integrations with bulirsch_stoer are reliable",
  "When a system is integrated with bulirsch_stoer and integrate_adaptive, integrate_n_steps, integrate_const or integrate_times, with any tolerances, any first step size and any limit of the step size or none, with a new object or one used before, then the call always ends: it returns, or it throws step_adjustment_error, the latter only if the absolute tolerance is below a constant times 0.92^498. All observed states of integrate_adaptive are connected by steps in the direction of dt, not longer than the limit, each of which is the result of extrapolation_stepper of some order from 4 to 18 with a weighted error below one; the last one is the returned state at the end time. The others observe exactly the requested times. All observed states differ from the exact solution by at most C ( |error of the start state| + H^4 ), if no step is longer than H.",
  "every right-hand side that is 18 times continuously differentiable and Lipschitz continuous, in every dimension, every solution, every interval, every start state up to a given norm, every absolute tolerance > 0 and other tolerances >= 0, every limit or none, every first step size in both directions, every history of the object, every behaviour of the resizer",
  "A test runs a few systems with a few tolerances; that the choice of order and step size can never decrease the step size forever concerns all histories of the order.",
  ["stepper/bulirsch_stoer.hpp:try_step", "stepper/bulirsch_stoer.hpp:calc_h_opt", "stepper/bulirsch_stoer.hpp:should_reject", "stepper/bulirsch_stoer.hpp:extrapolate", "integrate/detail/integrate_adaptive.hpp:integrate_adaptive", "integrate/detail/integrate_n_steps.hpp:integrate_n_steps", "integrate/detail/integrate_const.hpp:integrate_const", "integrate/detail/integrate_times.hpp:integrate_times"])

p("C95", "Integrating the reversed system backward makes the same steps",
  "If x( t ) solves x' = f( x , t ), then x( -t ) solves x' = -f( x , -t ). Whoever integrates this reversed system from -t0 to -t1 with the step size -dt (and the limit -max_dt) sees the same as in the integration of the given system from t0 to t1 with dt: the same observed states at the negated times, the same number of steps, the same accepted and rejected steps with the negated step sizes, the same calls of the system function, the same end state, exceptions included. Hence integrating backward in time is as accurate and as expensive as integrating forward.",
  "every system function (side effects and exceptions included), every explicit, multistep, symplectic and controlled stepper, every history of both steppers (the mirrored one where a stepper keeps derivatives or step sizes), every start state, time interval, step size, number of steps and sequence of times, every tolerance of the time comparisons",
  "Tests integrate forward, or backward for a few systems; that no decision of the step-size control depends on the direction concerns all errors and step sizes.",
  ["stepper/controlled_runge_kutta.hpp:try_step", "stepper/controlled_runge_kutta.hpp:decrease_step", "stepper/controlled_runge_kutta.hpp:increase_step", "stepper/controlled_runge_kutta.hpp:check_step_size_limit", "stepper/controlled_runge_kutta.hpp:error", "stepper/bulirsch_stoer.hpp:try_step", "integrate/detail/integrate_adaptive.hpp:integrate_adaptive", "integrate/detail/integrate_const.hpp:integrate_const", "integrate/detail/integrate_n_steps.hpp:integrate_n_steps", "integrate/detail/integrate_times.hpp:integrate_times", "util/detail/less_with_sign.hpp:min_abs"])

with open("/verif/properties.jsonl", "w") as f:
    for q in P:
        f.write(json.dumps(q, ensure_ascii=False) + "\n")
print(len(P))
