{"id": "C01", "title": "SolverSQP::solve returns true only with a KKT residual within tolerance", "statement": "Whenever SolverSQP::solve(...) returns true, get_KKT() read right after the call is <= get_termination_tolerance(), and it was recomputed (checkKKTConditions) in that very call at the direction computed last. No exception, rejected line search or regularization retry can make it return true with a stale or larger residual.", "quantifier": "every problem, every initial guess, every parameter setting, every maxiter, every arithmetic (including rounding, overflow and NaN)", "why_tests_cant": "A test sees a handful of problems; the claim is about all exit paths of the loop, including paths where computeDirection or tryStep throw.", "anchors": ["src/sqp.cpp: SolverSQP::solve, checkKKTConditions"]}
{"id": "C02", "title": "Meaning of SolverSQP's KKT residual", "statement": "In exact arithmetic, SolverSQP's residual is <= tol iff, with the returned multipliers lag_mul, all stationarity components |Lx + Fx'lam_{t+1} - lam_t|, |Lu + Fu'lam_{t+1}|, |Lx_T - lam_T| and all dynamics gaps |fs_t| (initial gap included) are <= tol (for tol >= 0); so a zero residual is exactly a first-order (KKT) point of the optimal control problem whose derivatives are the stored ones.", "quantifier": "every horizon, every dimension, every data and every multiplier", "why_tests_cant": "A universally quantified equivalence between a computed max and a family of inequalities.", "anchors": ["src/sqp.cpp: checkKKTConditions"]}
{"id": "C03", "title": "SolverCSQP certificate: what a true return guarantees (and what it does not)", "statement": "Whenever SolverCSQP::solve returns true, its KKT residual is <= tolerance, which in exact arithmetic means stationarity of the constrained Lagrangian, dynamics gaps and the L1 constraint violation are all <= tol. The residual contains no complementarity or dual sign term: a point with a non-zero multiplier on an inactive constraint can be certified.", "quantifier": "every problem, every initial guess, every setting and arithmetic; the missing complementarity is an existence claim", "why_tests_cant": "Soundness of the certificate ranges over all inputs; incompleteness needs a certified but non-optimal point.", "anchors": ["src/csqp.cpp: SolverCSQP::solve, checkKKTConditions, calc"]}
{"id": "C04", "title": "DDP and FDDP return true only with a KKT residual within tolerance", "statement": "Whenever SolverDDP::solve or SolverFDDP::solve returns true, the residual recomputed in that call by checkKKTConditions is <= tolerance.", "quantifier": "every problem, initial guess, setting, arithmetic", "why_tests_cant": "Same as C01: all exit paths.", "anchors": ["src/ddp.cpp: SolverDDP::solve", "src/fddp.cpp: SolverFDDP::solve"]}
{"id": "C05", "title": "SolverPROXQP returns true only with a residual within tolerance", "statement": "Whenever SolverPROXQP::solve returns true its residual is <= tolerance and was evaluated at the current xs, us with the multipliers of the previous QP (the check precedes the QP of the same iteration).", "quantifier": "every problem, initial guess, setting, QP-solver answer", "why_tests_cant": "All exit paths and every possible QP answer.", "anchors": ["src/csqp_proxqp.cpp: solve, computeDirection, checkKKTConditions"]}
{"id": "C06", "title": "SolverKKT's residual uses multipliers of the wrong sign and ignores dynamics gaps", "statement": "SolverKKT's linear system determines multipliers lam with Lx + (H p)_x + lam_t - Fx' lam_{t+1} = 0, while its residual evaluates Lx + Fx' lam_{t+1} - lam_t, and the gap vector it uses is never recomputed. Hence with an exact linear solve the residual is the largest entry of twice the cost gradient plus the Hessian terms of the step, whatever the gaps; a trajectory that violates the dynamics can be certified, and at the exact minimiser of a linear-quadratic problem the residual test can fail (solve with maxiter = 1 then returns false). The only other way to return true is the stopping value, which is the true squared violation at the trajectory before the last step.", "quantifier": "the sign relation for every problem; existence of a certified infeasible trajectory and of a refused optimum", "why_tests_cant": "A sign relation between two routines for all data.", "anchors": ["src/kkt.cpp: checkKKTConditions, stoppingCriteria, calcDiff, computePrimalDual"]}
{"id": "C07", "title": "The initial state of the returned trajectory is the problem's x0", "statement": "After SolverSQP::solve or SolverCSQP::solve returns, however it returns, xs[0] equals the problem's initial state whatever init_xs was, provided integrate(x, 0) = x; and every trial trajectory starts there too.", "quantifier": "every guess, every iteration count, every accepted or rejected step", "why_tests_cant": "Invariant over an unbounded number of iterations.", "anchors": ["src/sqp.cpp: solve, forwardPass, tryStep", "src/csqp.cpp: solve, forwardPass, tryStep"]}
{"id": "C08", "title": "Iteration counts are bounded by maxiter", "statement": "get_iter() after solve is <= maxiter, no more than maxiter line searches (maxiter * |alphas| tryStep calls) are made, and with the extra iteration disabled no more than maxiter KKT checks.", "quantifier": "every problem, maxiter and parameter setting", "why_tests_cant": "Bound for all maxiter.", "anchors": ["src/sqp.cpp: solve", "src/csqp.cpp: solve", "src/ddp.cpp: solve", "src/fddp.cpp: solve"]}
{"id": "C09", "title": "Termination and non-termination of the regularization retry loop", "statement": "With positive regularization, an increase factor greater than 1 and initial regularization <= reg_max, the retry loop around computeDirection ends after boundedly many attempts even if every attempt fails, and solve then returns false. With regularization 0 (solve(..., reginit=0), or reg_min = 0) and a direction computation that keeps failing, SQP, DDP, FDDP, PROXQP and CSQP loop for ever; starting above reg_max with an increase factor is clamped and ends. A run that ends, ends in the same way however many attempts an observer waits for.", "quantifier": "every failing problem, every positive start value; non-termination for every number of attempts", "why_tests_cant": "Tests cannot observe an infinite loop nor bound all finite ones.", "anchors": ["src/sqp.cpp: 103-116, 189-203", "src/ddp.cpp: increaseRegularization, solve", "src/csqp.cpp: 256-269"]}
{"id": "C10", "title": "Regularization stays within [reg_min, reg_max] and primal = dual regularization", "statement": "If 0 < reg_min <= reg_max, factors > 1 and the start value lies in the range, preg stays in [reg_min, reg_max] and equals dreg after solve returns, however it returns (except CSQP with remove_reg, where both stay 0).", "quantifier": "every run, every interleaving of increases and decreases", "why_tests_cant": "Invariant over all histories.", "anchors": ["src/ddp.cpp: increaseRegularization, decreaseRegularization", "src/sqp.cpp: solve"]}
{"id": "C11", "title": "Filter line search accepts exactly the steps not dominated by the filter memory", "statement": "With a filter of size n (set once, before solving) a trial step is accepted iff for none of the last min(n, iter+1) iterates of this solve both (CSQP and CSQPProxQP: all three) cost and gap (and constraint) norms are <= the trial's. After set_filter_size(m) with m smaller than before, the entries read are not the most recent ones and the claim fails.", "quantifier": "every sequence of iterates, every filter size, every iteration number", "why_tests_cant": "Ring buffer indexing for all histories.", "anchors": ["src/sqp.cpp: 133-163", "src/csqp.cpp: 290-339", "src/csqp_proxqp.cpp: solve", "include/mim_solvers/csqp.hpp: set_filter_size"]}
{"id": "C12", "title": "The filter never consults iterates of a previous solve", "statement": "With an unchanged filter size, the acceptance decision at iteration i of a solve depends only on entries pushed during this solve, whatever the buffers contained when solve was called.", "quantifier": "every previous content of the filter memory, every iteration", "why_tests_cant": "Needs all histories of previous solves.", "anchors": ["src/sqp.cpp: 148-158", "src/csqp.cpp: 314-333", "src/csqp_proxqp.cpp: solve"]}
{"id": "C13", "title": "filter_size = 1 is the heuristic documented in the code", "statement": "With filter_size = 1 the filter accepts iff cost > cost_try or gap > gap_try (SQP), respectively or constraint > constraint_try (CSQP, CSQPProxQP), for numbers that are not NaN.", "quantifier": "all cost/gap values", "why_tests_cant": "Equivalence over all values.", "anchors": ["src/sqp.cpp: 146-147"]}
{"id": "C14", "title": "NaN behaviour of the acceptance tests", "statement": "A trial whose gap or constraint norm is NaN is never considered worse than memory: the filter accepts it. The merit test rejects a trial whose merit is NaN. A trial whose accumulated cost is NaN, infinite or >= 1e30 raises and is never accepted.", "quantifier": "every value of the other quantities", "why_tests_cant": "All special-value combinations.", "anchors": ["src/sqp.cpp: 148-171, tryStep", "src/csqp.cpp: 323-347, tryStep"]}
{"id": "C15", "title": "Merit line search: strict decrease per accepted step and monotone merit over a solve", "statement": "With use_filter_line_search = false every accepted step strictly decreases the merit function; with fixed non-negative weights mu the CSQP and CSQPProxQP merit evaluated at the successive iterates of one solve is strictly decreasing, because each iterate is re-evaluated at its own trajectory.", "quantifier": "every run and every iteration", "why_tests_cant": "Monotonicity along unbounded runs.", "anchors": ["src/csqp.cpp: 295-347, tryStep, calc", "src/sqp.cpp: 165-171"]}
{"id": "C16", "title": "The line search takes the first acceptable step length", "statement": "If a step is accepted, it is the first step length in set_alphas order for which tryStep does not throw and the test passes; if none passes, xs and us are unchanged by the line search.", "quantifier": "every list of step lengths, every pattern of failures", "why_tests_cant": "All failure patterns.", "anchors": ["src/sqp.cpp: 137-172", "src/csqp.cpp: 316-351"]}
{"id": "C17", "title": "Data consistency at every direction computation", "statement": "CSQP (and SQP as long as every line search accepted) computes each direction from cost, gaps and derivatives evaluated at the current xs, us. SQP violates this after a fully rejected line search: calc is only run at iteration 0, so cost and gaps are those of the last rejected trial.", "quantifier": "every run; the violation is an existence claim", "why_tests_cant": "History dependence.", "anchors": ["src/ddp.cpp: calcDiff", "src/csqp.cpp: 244, calc", "src/sqp.cpp: computeDirection, tryStep"]}
{"id": "C18", "title": "The SQP direction and multipliers solve the KKT system of the regularized QP exactly", "statement": "In exact arithmetic, if computeDirection returns without exception then (dx, du, lag_mul) satisfy every equation of the KKT system of: minimise the quadratic model with Hessian blocks Lxx + preg I, Luu + dreg I, Lxu subject to dx_0 = 0 (given zero initial gap) and dx_{t+1} = Fx dx_t + Fu du_t + fs_{t+1}.", "quantifier": "every horizon, dimensions, symmetric Hessians, gaps and regularization", "why_tests_cant": "Riccati recursion correctness for all sizes.", "anchors": ["src/ddp.cpp: backwardPass, computeGains", "src/sqp.cpp: forwardPass"]}
{"id": "C19", "title": "The SQP direction is the unique global minimiser of that QP", "statement": "Under the same conditions every other (dx, du) satisfying the linearised dynamics from dx_0 = 0 has a larger model cost; the gap is a sum of squares of the Quu matrices.", "quantifier": "every feasible competitor", "why_tests_cant": "Optimality quantifies over all competitors.", "anchors": ["src/ddp.cpp: backwardPass", "src/sqp.cpp: forwardPass"]}
{"id": "C20", "title": "Gaps contract by (1 - alpha)", "statement": "For affine dynamics a SQP/CSQP/CSQPProxQP trial with step length alpha has exactly (1 - alpha) times the current gaps, so a full step closes them all; FDDP's trial has, for any nonlinear dynamics, gaps exactly (1 - alpha) times the current ones.", "quantifier": "every alpha, every horizon, every gap", "why_tests_cant": "Algebraic identity for all inputs.", "anchors": ["src/sqp.cpp: forwardPass, tryStep", "src/fddp.cpp: forwardPass"]}
{"id": "C21", "title": "DDP trials are dynamically feasible rollouts from x0", "statement": "After a successful DDP tryStep, and FDDP tryStep with step 1 or from a feasible candidate, the trial trajectory satisfies xs[0] = x0 and xs[t+1] = xnext(xs[t], us[t]) for all t, and the trial cost is the total cost of that trajectory.", "quantifier": "every problem, horizon, step length", "why_tests_cant": "All problems.", "anchors": ["src/ddp.cpp: forwardPass", "src/fddp.cpp: forwardPass"]}
{"id": "C22", "title": "DDP expected improvement and cost decrease", "statement": "In exact arithmetic d1 = -d0 and d0 >= 0, so the expected improvement alpha(1 - alpha/2) d0 is non-negative for every alpha in [0,1]; a step accepted from a feasible candidate with d0 >= th_grad and th_acceptstep >= 0 satisfies Armijo's condition and never increases the cost.", "quantifier": "every problem and step", "why_tests_cant": "All inputs.", "anchors": ["src/ddp.cpp: expectedImprovement, solve"]}
{"id": "C23", "title": "FDDP's trial gap norm measures the wrong quantity", "statement": "The gap norm FDDP uses in its filter for a trial is the norm of xnext - x at the same node, not of the shooting gap: a dynamically feasible trial generally gets a positive gap norm, and a trial with a positive gap can get 0.", "quantifier": "existence claims plus the exact formula for all inputs", "why_tests_cant": "Needs the formula for all inputs.", "anchors": ["src/fddp.cpp: 313, 355"]}
{"id": "C24", "title": "CSQP: each backward/forward pass solves the ADMM subproblem exactly", "statement": "In exact arithmetic, a full backward pass followed by the forward pass gives the exact minimiser of the quadratic model plus sigma/2 |d - d_prev|^2 plus 1/2 |G d - z + y/rho|_rho^2 (constraint rows of stage 0 seen only through u) subject to the linearised dynamics.", "quantifier": "every problem size, rho, sigma, y, z", "why_tests_cant": "All sizes.", "anchors": ["src/csqp.cpp: backwardPass, forwardPass"]}
{"id": "C25", "title": "The cheap backward pass computes the same step as the full one", "statement": "Within computeDirection, whenever backwardPass_without_rho_update is used instead of backwardPass, the resulting k, K, Vx, Vxx and hence step are the same as the full pass would have produced, because rho, the derivatives, gaps and regularization did not change since the last full pass.", "quantifier": "every QP iteration of every run, every update interval >= 1", "why_tests_cant": "Cache-validity invariant over unbounded loops.", "anchors": ["src/csqp.cpp: computeDirection, backwardPass_without_rho_update, update_rho_vec"]}
{"id": "C26", "title": "Multi-threaded backward passes equal the sequential ones under every schedule", "statement": "backwardPass_mt and backwardPass_without_rho_update_mt leave Vx, Vxx, K, k, Qu, Quu ... equal to the sequential versions (exact arithmetic), whatever order the threads execute the loop iterations in.", "quantifier": "every permutation of loop iterations, every number of threads", "why_tests_cant": "All schedules.", "anchors": ["src/csqp.cpp: backwardPass_mt, backwardPass_without_rho_update_mt"]}
{"id": "C27", "title": "ADMM iterates: z inside the bounds, y complementary to z", "statement": "After each update_lagrangian_parameters, g + z lies in [lb, ub] componentwise whenever lb <= ub, and y is in the normal cone of the box at z: y > 0 only if z is at the upper bound, y < 0 only if z is at the lower bound.", "quantifier": "every iterate, every rho > 0, every alpha", "why_tests_cant": "All iterates.", "anchors": ["src/csqp.cpp: update_lagrangian_parameters"]}
{"id": "C28", "title": "Zero ADMM residual means the QP is solved", "statement": "In exact arithmetic, an ADMM iterate with primal residual 0 and z, d unchanged by the iteration is a KKT point of the convex QP (stationarity with y, dynamics, bounds, complementarity), up to the regularization preg, dreg.", "quantifier": "every problem, rho, sigma, alpha > 0", "why_tests_cant": "All fixed points.", "anchors": ["src/csqp.cpp: computeDirection, update_lagrangian_parameters"]}
{"id": "C29", "title": "rho stays in [rho_min, rho_max] and is never NaN", "statement": "Provided the built-in reset value 1e-1 lies in it, the base penalty (get_rho_sparse) is within [rho_min, rho_max] at every QP iteration of every solve: in particular the residual ratios 0/0, inf/inf, x/0 cannot make it NaN. (Rows recognised as equalities use 1e3 times it and may exceed rho_max.)", "quantifier": "every residual value including special values", "why_tests_cant": "All special-value combinations.", "anchors": ["src/csqp.cpp: update_rho_vec"]}
{"id": "C30", "title": "Per-constraint penalty classification", "statement": "After a rho update every constraint row has rho_min if unbounded on both sides, 1e3*rho if its bounds coincide up to 1e-6, rho otherwise, and inv_rho is its inverse; rows with crossed bounds (lb > ub + 1e-6) keep whatever value they had (uninitialised memory after construction).", "quantifier": "all bounds", "why_tests_cant": "All bounds values.", "anchors": ["src/csqp.cpp: apply_rho_update"]}
{"id": "C31", "title": "set_rho_sparse has no effect on a solve", "statement": "Whatever value is passed to set_rho_sparse, the result of a subsequent solve is identical (except that when the clock has already run out at the first check the stored value is still there afterwards).", "quantifier": "every value, every problem", "why_tests_cant": "Non-interference over all runs.", "anchors": ["include/mim_solvers/csqp.hpp: set_rho_sparse", "src/csqp.cpp: reset_rho_vec, solve"]}
{"id": "C32", "title": "get_qp_iters and the QP convergence flag", "statement": "If the QP loop stops on tolerance, get_qp_iters() is the number of executed iterations and both residuals are within tolerance; when the iteration limit is exhausted get_qp_iters() is max_qp_iters + 1 although only max_qp_iters were executed; tolerance is only tested at multiples of the update interval.", "quantifier": "every run", "why_tests_cant": "All runs.", "anchors": ["src/csqp.cpp: computeDirection"]}
{"id": "C33", "title": "Maximum solve time", "statement": "CSQP checks the clock before each SQP iteration and each QP iteration; if the budget is exceeded no further QP iteration starts, and a solve that times out before the first QP iteration of a SQP iteration returns false without a line search. An exception-raising unconstrained backward pass precedes every clock check in the retry loop, so with zero regularization the limit is not enforced.", "quantifier": "every clock behaviour", "why_tests_cant": "All timings.", "anchors": ["src/csqp.cpp: 239, 256, computeDirection 472"]}
{"id": "C34", "title": "CSQP's get_steplength is constant; regularization adaptation ignores the line search", "statement": "The member returned by get_steplength is never written during SolverCSQP::solve: it keeps its value, so the accepted step length is not observable and regularization is decreased after every accepted step whatever its length (when that value is > th_stepdec).", "quantifier": "every run", "why_tests_cant": "All runs.", "anchors": ["src/csqp.cpp: 316, 355"]}
{"id": "C35", "title": "Parameter setters validate and are atomic", "statement": "Each SolverDDP parameter setter either stores the value, leaving all other parameters unchanged, or throws leaving all parameters unchanged; it throws exactly for the documented ranges on non-NaN values; NaN passes every check.", "quantifier": "every value including special values and every sequence of calls", "why_tests_cant": "All values and histories.", "anchors": ["src/ddp.cpp: 547-639"]}
{"id": "C36", "title": "set_alphas accepts exactly decreasing sequences", "statement": "set_alphas stores the list iff consecutive values are decreasing and strictly positive from the second on; the first value's sign or size is unchecked, so a list whose first element exceeds 1 is accepted and its tryStep always throws.", "quantifier": "every list", "why_tests_cant": "All lists.", "anchors": ["src/ddp.cpp: set_alphas"]}
{"id": "C37", "title": "A failed line search increases the regularization (default step lengths)", "statement": "With default step lengths, a line search that accepts no step in SQP/DDP/FDDP/PROXQP increases the regularization; with custom step lengths whose last value exceeds th_stepinc it does not, and with alphas = [1] it even decreases it.", "quantifier": "every failing line search", "why_tests_cant": "All failures.", "anchors": ["src/sqp.cpp: 174-183", "src/ddp.cpp: solve"]}
{"id": "C38", "title": "Callbacks run exactly once per computed direction, before the tolerance test", "statement": "In SQP and CSQP the callbacks run exactly once for every KKT check, after it and before the return decision, so the last callback of a successful solve sees the final residual; in DDP/FDDP the converged iteration triggers no callback.", "quantifier": "every run, every number of callbacks", "why_tests_cant": "All runs.", "anchors": ["src/sqp.cpp: 118-131, 205-217", "src/csqp.cpp: 277-287", "src/ddp.cpp: solve"]}
{"id": "C39", "title": "Verbose callback: layout, formatting state and solver type", "statement": "The title centering fills exactly the requested width whenever the text fits and never truncates a longer text (which gets one extra space when it is too long by an odd number). Attached to SQP or CSQP each call prints exactly one line of values, preceded by the header exactly in iterations divisible by ten, with dashes instead of the step exactly when KKT < tolerance; merit, cost and gap norm stand below their titles, later columns are displaced by two. The call leaves std::cout in the format it used last (fixed, precision 0 after CSQP). DDP and FDDP pass \"SQP\", so every call from them is an invalid cast (undefined behaviour). An unsupported solver type throws only in iterations divisible by ten, otherwise only the iteration number is printed. The constructor throws exactly for negative precision.", "quantifier": "all strings, widths, precisions, solver states, stream states", "why_tests_cant": "All strings, widths and states.", "anchors": ["src/utils/callbacks.cpp: center_string, update_header, operator(), set_precision", "src/ddp.cpp: 149", "src/fddp.cpp: 180"]}
{"id": "C40", "title": "PROXQP assembles the QP of the linearised problem", "statement": "The matrices P, q, A, b, C, l, u built by calc represent the quadratic model, the linearised dynamics and linearised constraints in the stacked variable (dx_1..dx_T, du_0..du_{T-1}); with control dimensions varying over time the Gu blocks are misplaced.", "quantifier": "every horizon and dimensions, every vector", "why_tests_cant": "All sizes.", "anchors": ["src/csqp_proxqp.cpp: calc"]}
{"id": "C41", "title": "SolverKKT assembles and solves the KKT system", "statement": "If the linear solve is exact, SolverKKT's primal step satisfies the linearised dynamics and initial condition and stationarity of the quadratic model with its multipliers. For convex stage costs the system is nonsingular, the step is unique and minimises the quadratic model among the linearly feasible steps; on a convex linear-quadratic problem solve with maxiter >= 2 (guess not declared feasible, first step length 1) returns true, with an exact KKT point unless the residual test passed for the guess.", "quantifier": "every horizon and dimension", "why_tests_cant": "All sizes.", "anchors": ["src/kkt.cpp: calcDiff, computePrimalDual, computeDirection"]}
{"id": "C42", "title": "Constructors reject Crocoddyl equality constraints", "statement": "SolverCSQP and SolverPROXQP construction throws iff some running or terminal model has nh > 0.", "quantifier": "all problems", "why_tests_cant": "All problems.", "anchors": ["src/csqp.cpp: 137-152", "src/csqp_proxqp.cpp: constructor"]}
{"id": "C43", "title": "remove_reg lets backward-pass exceptions escape CSQP::solve", "statement": "With remove_reg = true a failing direction computation propagates the exception out of solve; without it solve never throws from a failing direction computation.", "quantifier": "every run", "why_tests_cant": "All runs.", "anchors": ["src/csqp.cpp: 253-269"]}
{"id": "C44", "title": "One-step convergence on linear-quadratic problems", "statement": "In exact arithmetic with reginit = 0, on a strictly convex LQ problem SQP's first full step yields a feasible KKT point: the second KKT check gives residual 0 and solve(maxiter >= 2) returns true when the step is accepted.", "quantifier": "every LQ problem, horizon, guess", "why_tests_cant": "All LQ problems.", "anchors": ["src/sqp.cpp: solve"]}
{"id": "C45", "title": "CSQP warm starts: multipliers kept, auxiliary variable reset", "statement": "At the start of each QP z is zero; y is kept from the previous QP iff reset_y is false, else zero; rho is reset iff reset_rho (or at iteration 0 of a solve).", "quantifier": "every history", "why_tests_cant": "All histories.", "anchors": ["src/csqp.cpp: reset_params, solve 248"]}
{"id": "C46", "title": "Without inequality constraints CSQP computes the SQP direction", "statement": "With no constraints and the equality-QP initial guess enabled, each CSQP direction after any number of QP iterations equals SQP's direction for the same data and regularization (exact arithmetic).", "quantifier": "every problem without constraints, any number of QP iterations, any sigma >= 0", "why_tests_cant": "All problems.", "anchors": ["src/csqp.cpp: computeDirection, backwardPass, backwardPass_without_constraints", "src/sqp.cpp: computeDirection"]}
{"id": "C47", "title": "Parallel reductions give schedule-independent results in exact arithmetic", "statement": "In a multi-threaded build update_lagrangian_parameters leaves the same multipliers and auxiliary variables as the sequential one under every schedule, in any arithmetic; in exact arithmetic its residual norms, and the cost, gap, constraint violation and merit of tryStep, equal the sequential ones too, whenever no thread's partial cost and no sequential partial cost leaves the accepted range (in particular for non-negative node costs). With negative node costs, each thread checking its own partial sum makes the program terminate on a trial the sequential code accepts.", "quantifier": "every number of threads, assignment of iterations to threads, interleaving of the threads' assignments and combination order of the private copies", "why_tests_cant": "All schedules.", "anchors": ["src/csqp.cpp: update_lagrangian_parameters, tryStep"]}
{"id": "C48", "title": "stoppingCriteria and expectedImprovement of DDP", "statement": "stop = sum of |Qu|^2 >= 0 with equality iff all Qu vanish; it does not influence solve's return value.", "quantifier": "every state", "why_tests_cant": "All states.", "anchors": ["src/ddp.cpp: stoppingCriteria, solve"]}
{"id": "C49", "title": "Constructor defaults satisfy the parameter invariants", "statement": "After construction 0 < reg_min <= reg_max, factors > 1, alphas strictly decreasing in (0,1], th_stepinc >= last alpha, th_stepdec in (0,1), so the termination (C09), range (C10) and line-search (C37) guarantees apply to default-constructed solvers called with the default reginit.", "quantifier": "all default-constructed solvers", "why_tests_cant": "Links defaults to every guarantee.", "anchors": ["src/ddp.cpp: constructor", "src/sqp.cpp: constructor", "src/csqp.cpp: constructor"]}
{"id": "C50", "title": "An exception raised inside a parallel region terminates the program", "statement": "In multi-threaded builds CSQP::tryStep throws inside an OpenMP loop, which the OpenMP model forbids to escape: the program terminates exactly when the cost accumulated by some thread becomes NaN, infinite or >= 1e30; a NaN node cost therefore terminates it under every schedule, while the sequential build skips the trial and goes on with the next step length.", "quantifier": "every schedule", "why_tests_cant": "All schedules.", "anchors": ["src/csqp.cpp: tryStep 1392-1395"]}
{"id": "C51", "title": "An exact KKT point is a fixed point of SolverSQP::solve", "statement": "Started with init_xs, init_us equal to an exact KKT point of the nonlinear optimal control problem (with xs[0] = x0), any regularization and any maxiter >= 1, SolverSQP::solve returns true at its first tolerance test with residual 0, leaves xs and us unchanged, makes no trial step, and returns exactly the multipliers of the point (exact arithmetic, first direction computation succeeding).", "quantifier": "every problem with symmetric Hessians, every KKT point, every regularization, every maxiter >= 1, every reachable solver state", "why_tests_cant": "Requires uniqueness of the QP solution for every data; a test only sees particular optima up to rounding.", "anchors": ["src/sqp.cpp: solve, computeDirection, checkKKTConditions, forwardPass", "src/ddp.cpp: backwardPass"]}
{"id": "C52", "title": "A multi-threaded CSQP solve gives the single-threaded answer", "statement": "In a multi-threaded build with any number of threads and any schedules of the parallel loops, SolverCSQP::solve on a problem with non-negative costs ends with the same return value and the same answer (trajectory, multipliers, gains, residuals, filter memory, callbacks) as the single-threaded build, in exact arithmetic; the only other possibility is that the program is terminated inside a trial, and then some admissible step length of some iteration leads to a trajectory of cost >= 1e30. Runs with different thread counts agree.", "quantifier": "every problem with non-negative costs, every initial state of the solver, every argument, every number of threads, schedule, interleaving and combination order of the reductions, for the whole solve", "why_tests_cant": "All schedules over a whole solve.", "anchors": ["src/csqp.cpp: solve, computeDirection, backwardPass_mt, backwardPass_without_rho_update_mt, update_lagrangian_parameters, tryStep"]}
{"id": "C53", "title": "A QP iteration does not move away from a solution of the QP", "statement": "In exact arithmetic, in every direction computation of SolverCSQP on a convex QP, for every KKT point of that QP, each QP iteration but the first reduces the (rho, sigma, alpha)-weighted squared distance of (dx, du, z, y) to the KKT point, by at least alpha(2-alpha) times the weighted squared gap between the constraint values and z plus alpha sigma times the squared length of the move.", "quantifier": "every reachable solver, every solve, every direction computation, every iteration, every KKT point, every penalty vector, every schedule of the parallel passes", "why_tests_cant": "An inequality over all iterates and all solutions.", "anchors": ["src/csqp.cpp: computeDirection, backwardPass, forwardPass, update_lagrangian_parameters"]}
{"id": "C54", "title": "The QP loop ends by itself", "statement": "In exact arithmetic, if the penalty cannot adapt (rho_max <= adaptive_rho_tolerance * rho_min), 0 < alpha < 2, sigma >= 0, eps_abs > 0 and 0 <= eps_rel <= 1, then for every direction computation on a convex QP that has a KKT point there is an N such that the QP loop never executes more than N iterations: with max_qp_iters > N it ends by its tolerance test or by the time limit. More generally only finitely many iterations can follow any iteration without the penalties changing.", "quantifier": "every reachable solver, every solve, every direction computation, every max_qp_iters", "why_tests_cant": "Termination for every QP; no test can bound the number of iterations of all QPs.", "anchors": ["src/csqp.cpp: computeDirection, update_lagrangian_parameters, update_rho_vec"]}
{"id": "C55", "title": "What a solver remembers from earlier solves", "statement": "Two SQP solvers built on the same problem and carrying the same settings (tolerance, regularization bounds and initial value, trial steps, merit weight, filter size), one new and one with any history of solves, setter calls and changed data behind it, return the same value and the same trajectory, gaps, multipliers, stopping measure and iteration count when asked to solve from the same guess; the only exception is the reported step length when the list of trial steps is empty. For DDP and FDDP this is false: the first convergence test of a solve uses the multipliers left by the previous solve, so the same call can return true on a used solver and false on a new one; what is left of the history is exactly those multipliers and the state difference of the last forward pass. CSQP keeps more: two single-threaded CSQP solvers with the same settings, max_qp_iters > 0, no time limit noticed and filter not shrunk give the same outcome if they hold the same constraint multipliers y (irrelevant with reset_y), the same last step (irrelevant with equality_qp_initial_guess) and the same penalties in rows with crossed bounds; each of the three can change the result, and with max_qp_iters = 0 even the returned verdict depends on the previous solve; the same holds for two multi-threaded solvers with any numbers of threads and schedules, in exact arithmetic, if both calls end. PROXQP (with a deterministic ProxSuite) keeps exactly the multipliers of its last QP, and they can change the returned value.", "quantifier": "every problem, every pair of reachable solvers with the same settings, every guess, every maxiter", "why_tests_cant": "Tests run a few call sequences; this is about every history of calls that can precede a solve.", "anchors": ["src/sqp.cpp: solve, computeDirection, checkKKTConditions", "src/ddp.cpp: solve, computeDirection, checkKKTConditions", "src/fddp.cpp: solve", "src/csqp.cpp: solve, computeDirection, reset_params, update_rho_vec", "src/csqp_proxqp.cpp: solve, computeDirection, checkKKTConditions"]}
{"id": "C56", "title": "Why solve returns false", "statement": "When solve returns false the reason can be read off the solver. SQP, DDP, FDDP and PROXQP: get_iter() equals maxiter (for SQP with the extra iteration the last residual is moreover not within the tolerance) or the regularization equals reg_max. CSQP: get_iter() equals maxiter, or the regularization is at least reg_max, or the time limit was noticed, or the last direction comes from a QP without a single iteration, or a line search rejected every trial step. Conversely an iteration that brings the regularization to reg_max because its last step was short is the last one; in particular CSQP with get_steplength() <= th_stepdec gives up before iteration N as soon as reginit * reg_incFactor^N >= reg_max, however long the accepted steps are.", "quantifier": "every problem, solver state, guess, maxiter, reginit, arithmetic (the bound: exact arithmetic)", "why_tests_cant": "A test sees the reasons that occur in it, not that there are no others.", "anchors": ["src/sqp.cpp: solve", "src/ddp.cpp: solve", "src/fddp.cpp: solve", "src/csqp.cpp: solve", "src/csqp_proxqp.cpp: solve"]}
{"id": "C57", "title": "When a direction exists", "statement": "SQP, DDP and FDDP: the computation of a direction throws exactly if the linear-quadratic problem at the current point (derivatives there, current gaps, regularized Hessians) has a nonzero direction of nonpositive curvature or a value function reaching 1e30. Hence with convex costs that are strictly convex in the controls (or with positive regularization) the first attempt succeeds unless values overflow; and on any problem raising the regularization cures a failure: if the absolute values of the Hessian entries sum up to H with H * reg_incFactor < reg_max and regularization starts positive, the retry loop ends with a direction computed with regularization at most max(start, H * reg_incFactor).", "quantifier": "every problem with symmetric Hessians, point, regularization, horizon and dimension; exact arithmetic", "why_tests_cant": "A test tries finitely many matrices; failing exactly on the problems without a unique minimiser is a statement about all of them.", "anchors": ["src/sqp.cpp: computeDirection, backwardPass, solve", "src/ddp.cpp: computeDirection, backwardPass, computeGains, solve", "src/fddp.cpp: computeDirection, solve"]}
{"id": "C58", "title": "SQP solves strictly convex linear-quadratic problems", "statement": "On every strictly convex linear-quadratic problem (affine dynamics, quadratic convex costs, strictly convex in the controls) SQP with reginit = 0, maxiter >= 2, 1 as first step length and the filter line search (or the merit line search and a feasible guess) returns true, from every state a solver can be in and every initial guess, with one trial step: either the guess is a KKT point up to the tolerance and is returned unchanged after zero steps, or the returned trajectory is the unique minimiser of the optimal control problem over all feasible trajectories, with exact multipliers and residual zero. The only assumption on sizes is that costs and value functions stay below 1e30 (the code's overflow threshold).", "quantifier": "every such problem (horizon, dimensions), solver state, guess, maxiter >= 2; exact arithmetic", "why_tests_cant": "A test checks some problems; that no direction fails, the filter never refuses the full step and the result is the global minimiser is a statement about all of them.", "anchors": ["src/sqp.cpp: solve, computeDirection, tryStep, checkKKTConditions, forwardPass", "src/ddp.cpp: backwardPass, computeGains, increaseRegularization, decreaseRegularization"]}
{"id": "C59", "title": "DDP recognises a solution", "statement": "Given a KKT point of the optimal control problem as initial guess (declared feasible or not) and maxiter >= 3, SolverDDP returns true after at most three iterations with exactly that trajectory and with multipliers that satisfy the KKT conditions up to the tolerance, for every problem whose stage and terminal costs are convex at that point (strictly in the controls, or a positive regularization), from every state the solver can be in. Two iterations do not suffice: the convergence test uses multipliers computed by the previous forward pass, so a used solver given the exact solution and maxiter = 2 can return false.", "quantifier": "every problem (nonlinear dynamics included), horizon, dimension, KKT point, solver state, regularization >= 0, maxiter >= 3; exact arithmetic", "why_tests_cant": "A test sees one solution of one problem; that no solver state and no regularization makes the solver walk away from or fail at a solution is about all of them.", "anchors": ["src/ddp.cpp: solve, computeDirection, checkKKTConditions, forwardPass, expectedImprovement, updateExpectedImprovement"]}
{"id": "C60", "title": "DDP solves strictly convex linear-quadratic problems", "statement": "On every strictly convex linear-quadratic problem SolverDDP with reginit = 0, maxiter >= 4, step length 1 first and acceptance threshold below 1 returns true after at most four iterations, from every solver state and every guess: either the first convergence test accepts the guess, or the returned trajectory is the unique minimiser of the optimal control problem. The only assumption on sizes is that values stay below 1e30.", "quantifier": "every such problem (horizon, dimensions), solver state, guess, maxiter >= 4; exact arithmetic", "why_tests_cant": "A test checks some problems; that every full step is accepted and lands on the global minimiser is a statement about all of them.", "anchors": ["src/ddp.cpp: solve, computeDirection, backwardPass, forwardPass, tryStep, checkKKTConditions"]}
{"id": "C61", "title": "FDDP with its default filter can refuse every step", "statement": "SolverFDDP with default settings is not guaranteed to make progress even on strictly convex linear-quadratic problems that SQP and DDP solve in a few iterations: there is such a problem (one stage, one state, one control) and an infeasible guess for which, whatever the solver did before, whatever maxiter, reginit in [0, 1e20], step lengths and acceptance thresholds (filter of one entry, tolerance below 1/2), solve returns false and xs, us are the initial guess unchanged. In general the filter refuses every trial that is not better than the current point in cost or in the gap the code computes for trials, which adds the gap that a partial step is designed to leave (C23).", "quantifier": "every history of the solver, maxiter, regularization, list of step lengths and thresholds; exact arithmetic", "why_tests_cant": "A test shows that some runs fail; that no number of iterations and no parameter value makes the solver move is a statement about all of them.", "anchors": ["src/fddp.cpp: solve, forwardPass, tryStep", "src/ddp.cpp: increaseRegularization, decreaseRegularization"]}
{"id": "C62", "title": "FDDP recognises a solution", "statement": "Given a KKT point of the optimal control problem as initial guess (declared feasible or not) and maxiter >= 3, SolverFDDP, with the filter or with the Goldstein test, returns true after at most three iterations with exactly that trajectory and with multipliers that satisfy the KKT conditions up to the tolerance, for every problem whose costs are convex at that point (strictly in the controls, or a positive regularization) on a state manifold with integrate(x, 0) = x, from every state the solver can be in, provided the regularization does not reach reg_max in the first two iterations. With the filter every trial at the point is refused; the refused trials bring the multipliers up to date.", "quantifier": "every problem (nonlinear dynamics included), horizon, dimension, KKT point, solver state, regularization >= 0, maxiter >= 3; exact arithmetic", "why_tests_cant": "A test sees one solution of one problem; that no solver state makes the solver walk away from or fail at a solution is about all of them.", "anchors": ["src/fddp.cpp: solve, computeDirection, forwardPass, expectedImprovement, updateExpectedImprovement, checkKKTConditions"]}
{"id": "C63", "title": "FDDP without the filter solves strictly convex linear-quadratic problems", "statement": "On every strictly convex linear-quadratic problem SolverFDDP with use_filter_line_search = false, reginit = 0, maxiter >= 4, step length 1 first, th_acceptstep < 1 < th_acceptnegstep returns true after at most four iterations, from every solver state and every guess that is feasible or whose cost is not exactly the optimal cost: the improvement predicted for the full step equals the actual one; either the first convergence test accepts the guess, or the returned trajectory is the unique minimiser of the optimal control problem. (With the default filter this is false: C61.)", "quantifier": "every such problem (horizon, dimensions), solver state, guess, maxiter >= 4; exact arithmetic", "why_tests_cant": "A test checks some problems; that every full step is accepted and lands on the global minimiser is a statement about all of them.", "anchors": ["src/fddp.cpp: solve, computeDirection, forwardPass, expectedImprovement, updateExpectedImprovement", "src/ddp.cpp: backwardPass, tryStep"]}
{"id": "C64", "title": "What a true return of SQP, DDP and FDDP says about the cost", "statement": "On problems with convex costs (not necessarily quadratic) and affine dynamics, whenever solve returns true, the cost of the returned trajectory exceeds the cost of any feasible trajectory by at most termination_tolerance * (L1 distance between the two trajectories + L1 norm of the multipliers the solver holds). For SQP this needs that no rejected trial left stale data (C17).", "quantifier": "every convex problem (horizon, dimensions, costs), solver state, guess, configuration, history of iterations, feasible competitor; exact arithmetic", "why_tests_cant": "A statement about all feasible trajectories of all convex problems; a test compares with a few.", "anchors": ["src/sqp.cpp: solve, checkKKTConditions", "src/ddp.cpp: solve, checkKKTConditions", "src/fddp.cpp: solve"]}
{"id": "C65", "title": "What a true return of CSQP and PROXQP says about the cost", "statement": "On problems with convex costs, affine dynamics and affine constraints with consistent bounds, whenever solve returns true (CSQP: within the time limit, with max_qp_iters > 0; PROXQP: with an exact QP solver), the cost of the returned trajectory exceeds the cost of any trajectory that satisfies the dynamics and the constraints by at most termination_tolerance * (distance + multipliers) plus the complementarity gap of the multipliers used in the test (multiplier times distance to the bound its sign points to). For CSQP that gap equals the sum of y.z over the nodes. The gap term cannot be dropped: there is a run with residual exactly 0 whose result is suboptimal by exactly the gap.", "quantifier": "every such problem, solver state, guess, configuration with positive penalties, time behaviour, feasible competitor; exact arithmetic", "why_tests_cant": "A statement about all feasible trajectories of all convex problems; and about what the residual does not contain.", "anchors": ["src/csqp.cpp: solve, checkKKTConditions, update_lagrangian_parameters", "src/csqp_proxqp.cpp: solve, computeDirection, checkKKTConditions"]}
{"id": "C66", "title": "When CSQP finds a direction", "statement": "SolverCSQP.computeDirection throws only for lack of curvature: a backward pass of an ADMM iteration succeeds exactly if the function that iteration minimises (regularized quadratic model + sigma/2 ||.||^2 + penalty) has positive curvature along every direction compatible with the linearised dynamics that moves some control, for every schedule of the parallel loops. With the default warm start (equality_qp_initial_guess) computeDirection succeeds exactly if the quadratic model alone has that property, whatever the constraints, penalties and sigma. On problems with convex costs (any dynamics, any constraints without crossed bounds) solve therefore never throws and never needs a second attempt, if the warm start is off, the costs are strictly convex in the controls, or regularization is in use; a convex problem without these makes solve throw. On arbitrary problems raising the regularization cures a failed direction after a number of attempts bounded by the size of the Hessians.", "quantifier": "every problem, data, penalty vector, sigma, regularization, schedule, solver state, clock, iteration of every solve; exact arithmetic", "why_tests_cant": "A test factors some matrices; that no reachable QP iteration of any convex problem can throw is a statement about all problems, penalties and schedules.", "anchors": ["src/csqp.cpp: computeDirection, backwardPass, backwardPass_mt, backwardPass_without_constraints, solve"]}
{"id": "C67", "title": "CSQP and CSQPProxQP recognise an exact solution", "statement": "In exact arithmetic, if SolverCSQP.solve is started at a trajectory (with the problem's initial state) that satisfies the optimality conditions of the constrained problem exactly - stationarity, dynamics, bounds, sign and complementarity of the constraint multipliers y - and the solver holds these y (left from an earlier solve, or zero with reset_y), and the QP starts from the zero step (warm start off and the stored step zero, or no constraint force present), then, for any positive number of QP iterations, any penalties, relaxation, regularization and schedule, solve returns true in its first iteration, with trajectory and multipliers unchanged and without trying a step, provided computeDirection does not fail (it never fails on convex problems, C66). With the default warm start and an active constraint this is lost: solve can leave the exact solution and violate the bound. SolverCSQPProxQP on a convex problem, with an exact QP solver, returns true from an exact solution in at most two iterations and with the trajectory unchanged, whatever multipliers it holds: with the wrong ones the first iteration takes a zero step that replaces them. It needs two iterations and a regularization that can still grow: with maxiter = 1, or the regularization at its maximum, it returns false at the exact solution.", "quantifier": "every problem, exact solution with its multipliers, solver state holding them, parameters with positive penalties, iteration limits, schedules; exact arithmetic", "why_tests_cant": "A test warm-starts one problem within tolerances; that no parameter combination or problem dimension makes the ADMM iteration drift away from a solution is a fixed-point statement over all of them.", "anchors": ["src/csqp.cpp: solve, computeDirection, update_lagrangian_parameters, reset_params, checkKKTConditions", "src/csqp_proxqp.cpp: solve, checkKKTConditions"]}
{"id": "C68", "title": "Python SQP: meaning of True, the direction, independence of history", "statement": "The Python class SQP (python/sqp.py). If solve returns True, the candidate xs, us it leaves starts at the problem's initial state and satisfies with lag_mul the first-order optimality conditions up to the stored KKT residual, which is the least such bound and strictly below the tolerance; cost, gaps, gap norm, merit value and problem datas are those of that candidate (no stale data, unlike C17). Whenever calc of the direction returns, direction and multipliers are the unique solution of the KKT system of the unregularized quadratic model and the unique minimiser of the model; it returns exactly if the model has positive curvature along every nonzero direction of the linearized dynamics, and raises LinAlgError otherwise. A call of solve depends on the options and arguments only, never on earlier calls: equal results, exceptions and candidates.", "quantifier": "every problem, horizon, dimension, guess, maxiter, options and history of calls of the object; certificate and direction in exact arithmetic, history for every floating-point behaviour", "why_tests_cant": "A test runs a few problems with new objects; soundness of the certificate and independence of every earlier call are statements about all.", "anchors": ["python/sqp.py: SQP.solve, SQP.computeDirection, SQP.backwardPass, SQP.computeUpdates, SQP.check_optimality, SQP.tryStep"]}
{"id": "C69", "title": "The Python SQP and the C++ SolverSQP do the same iteration", "statement": "At the same candidate (starting at the initial state), with zero regularization in the C++ solver, the direction computations of SolverSQP and of the Python class compute the same cost, gap norm, merit value, direction, multipliers and KKT residual; the C++ one throws exactly if the Python one raises or the value function reaches 1e30. With the default filter memory the line searches start from the same data; then, if C++ takes the step 1/2^k (k < 9 or filter on), Python takes a step 1/2^j with j <= k, the same trajectory results if j = k, and j < k happens only on trials the C++ solver rejects for blowing up or for a tie. The difference is real: there is a problem on which C++ takes 1/2 and Python 1.", "quantifier": "every problem with symmetric Hessians, every reachable state of the two solvers at the same candidate; exact arithmetic", "why_tests_cant": "A test compares the two on a few problems (where ties do not occur); agreement of two different algorithms is about all inputs.", "anchors": ["src/sqp.cpp: computeDirection, forwardPass, checkKKTConditions, solve", "src/ddp.cpp: backwardPass", "python/sqp.py: SQP.computeDirection, SQP.backwardPass, SQP.computeUpdates, SQP.check_optimality, SQP.solve"]}
{"id": "C70", "title": "How the Python SQP can fail", "statement": "Python class SQP. (a) With the filter line search, once all ten trials are strictly worse in cost and gap norm than the candidate, solve returns False with that candidate for every larger maxiter: nothing in the class (no regularization) changes the direction. This happens on smooth problems with exact derivatives and positive definite Hessians. (b) With the merit line search only nine of the ten step lengths are compared; if none of the nine decreases the merit function solve returns False at once, even if the tenth evaluated trial would. (c) Started at an exact solution with callbacks enabled, solve raises TypeError instead of returning True (it formats the step length, which is still None), or UnboundLocalError with maxiter = 0 and the extra iteration; without callbacks it returns True with the guess. (d) Formatting errors occur only with callbacks and only after a passed convergence test; True is returned only after a passed convergence test.", "quantifier": "every problem, state, guess, filter size >= 1, maxiter, options; every floating-point behaviour ((c): exact arithmetic)", "why_tests_cant": "That no number of iterations helps, and that no other outcome exists, cannot be tested.", "anchors": ["python/sqp.py: SQP.solve, SQP.tryStep, SQP.check_optimality"]}
{"id": "C71", "title": "CSQPProxQP solves strictly convex constrained linear-quadratic problems in at most two iterations", "statement": "On a problem with affine dynamics and constraints and quadratic costs that are convex and strictly convex in the controls, in exact arithmetic, with a QP solver that answers the first two QPs exactly, CSQPProxQP::solve with step length 1 first and the filter line search (or the merit line search from a guess that satisfies dynamics and bounds) returns true after at most two iterations, from every state of the solver and every guess: either the first convergence test accepts the guess, whose residual with the multipliers of the previous solve is within the tolerance, or the result is the unique solution of the constrained optimal control problem among all trajectories that satisfy dynamics and bounds.", "quantifier": "every such problem of every horizon and dimensions, every initial guess, every history of the solver, maxiter >= 2", "why_tests_cant": "Optimality among all feasible trajectories and for all problems of the class is a universal statement.", "anchors": ["src/csqp_proxqp.cpp: SolverPROXQP::solve, tryStep, checkKKTConditions, computeDirection"]}
{"id": "C72", "title": "After a successful solve the gains are the optimal feedback policy", "statement": "In exact arithmetic, when SQP, DDP or FDDP solve returns true, the stored gains K, k are the optimal policy of the regularized quadratic model at the returned trajectory (SQP: provided no line search of the call failed): from every node and every state deviation there, applying du = -K dx - k until the end is the unique cheapest continuation, and Vxx, Vx describe its cost. The gains of CSQP are, after every QP iteration, the optimal policy of the augmented model with the penalties of all constraints. Limits: after a return of false at maxiter the gains belong to the previous iterate, even if the returned trajectory is optimal; CSQP's gains at a solution without active constraints differ from the optimal policy, because inactive constraints contribute their penalty.", "quantifier": "every problem with symmetric Hessians, every solve of every solver state that returns true, every node and state deviation", "why_tests_cant": "Optimality of a feedback law ranges over all states and all alternative continuations.", "anchors": ["src/sqp.cpp: SolverSQP::backwardPass, computeDirection, solve", "src/ddp.cpp: SolverDDP::backwardPass, computeGains", "src/fddp.cpp: SolverFDDP::solve", "src/csqp.cpp: SolverCSQP::backwardPass, backwardPass_without_rho_update"]}
{"id": "C73", "title": "Python CSQP: what a return value of True certifies", "statement": "The Python class CSQP (python/csqp.py with python/qp_solvers/stagewise_qp.py, method StagewiseQP). If solve returns True, the candidate it leaves, with the constraint multipliers y it holds, satisfies stationarity and feasibility of the nonlinear constrained problem up to the stored KKT residual, which is strictly below the tolerance and the least such bound (the multiplier of the initial state is free: the class does not test the state equation of node 0); the candidate starts at the problem's initial state, and cost, gap norm, constraint norm and problem datas are those of that candidate. Sign and complementarity of y are not certified: it can return True with residual 0 at a point that is not optimal.", "quantifier": "every problem, horizon >= 1, dimension, guess, maxiter, factorisation routine, options and history of calls on the object; exact arithmetic", "why_tests_cant": "A test runs a few problems; that no history, option or problem makes True a lie is a statement about all of them.", "anchors": ["python/csqp.py: CSQP.solve, CSQP.KKT_check, CSQP.tryStep", "python/qp_solvers/stagewise_qp.py: StagewiseADMM.calc, computeDirection, acceptStep"]}
{"id": "C74", "title": "The Python CSQP and the C++ SolverCSQP compute the same directions and, with the merit line search, the same iterates", "statement": "From the same candidate, multipliers and penalties, without regularization in C++ and on problems without degenerate bounds, whenever SolverCSQP.computeDirection returns in time, in any multi-threaded schedule, the Python class computes in the same number of QP iterations the same step, constraint multipliers, penalties and costates; the C++ residual is the Python residual or, if larger, the state equation of node 0. New objects with default options satisfy the assumption. With the merit line search and the same weights they stay in lockstep over any number of iterations, until Python returns True because it does not test node 0, or the tenth step length is needed, which Python never takes.", "quantifier": "every problem with symmetric Hessians and non-degenerate bounds, every guess, options (with OSQP's penalty rule and a penalty update interval of at least 2 QP iterations), number of QP and outer iterations, every schedule; exact arithmetic with exact factorisation", "why_tests_cant": "A test compares the two on a few problems within tolerances; agreement of two different implementations (fast passes, precomputed penalty matrices, parallel loops) is about all inputs.", "anchors": ["src/csqp.cpp: computeDirection, backwardPass, forwardPass, update_lagrangian_parameters, update_rho_vec, checkKKTConditions, solve", "python/qp_solvers/stagewise_qp.py: computeDirection, backwardPass, forwardPass, update_lagrangian_parameters, update_rho_sparse", "python/csqp.py: CSQP.solve, KKT_check"]}
{"id": "C75", "title": "Python CSQP: the line search", "statement": "With the filter, a trial of iteration i is rejected iff one of the last min(filter_size, i+1) iterates is strictly better in both cost and gap norm; the violation of the constraints plays no role (it is stored and never read). A failed filter search leaves the candidate and the iteration goes on, so with the filter False means that all maxiter iterations were used. On problems with affine dynamics the full step is therefore always accepted, whatever it does to constraints, and closes all gaps. There is a problem on which the class makes no progress for any number of iterations, QP options and factorisation, at a point that violates a constraint by 1, while the C++ solver moves. With automatic merit weights the weights of an iteration are those of the previous iteration's multipliers; the first merit function of a new object is the cost alone.", "quantifier": "every problem, state, guess, filter size >= 1, maxiter, options; affine statements and witnesses in exact arithmetic", "why_tests_cant": "That no number of iterations helps, and what all reachable filter memories contain, cannot be tested.", "anchors": ["python/csqp.py: CSQP.solve, CSQP.tryStep", "python/qp_solvers/stagewise_qp.py: calc, computeDirection", "src/csqp.cpp: solve"]}
{"id": "C76", "title": "Python CSQP: exceptions", "statement": "solve of the Python class CSQP raises exactly if rho_update_interval is 0 while QP iterations are allowed and a direction is computed at all (a division by zero). An indefinite stage Hessian is never reported, for any factorisation routine, even one that always fails. With maxiter = 0 and no extra iteration it returns False at the guess.", "quantifier": "every problem, state, guess, maxiter, options, factorisation routine and floating-point behaviour", "why_tests_cant": "Absence of every other exception on all inputs is a universal statement.", "anchors": ["python/csqp.py: CSQP.solve", "python/qp_solvers/stagewise_qp.py: computeDirection, backwardPass"]}
{"id": "C77", "title": "Python CSQP: what is remembered of earlier calls", "statement": "Two CSQP objects with any histories (calls of all methods, assignments to options, multipliers and candidate, exceptions) and the same options, the equality-constrained guess enabled and at least one QP iteration: if they hold the same constraint multipliers (or reset_y is set), and the same costates too when automatic weights or the non-OSQP penalty rule read them, every call of solve has the same outcome and candidate and, if it returns, the same multipliers, step and residual. In particular with reset_y, fixed weights and the OSQP rule a used object behaves like a new one. By default (reset_y False) it does not: the same call on the same object can give another candidate the second time.", "quantifier": "every problem, pair of histories, guess, maxiter >= 1, options and floating-point behaviour", "why_tests_cant": "Independence of every earlier call sequence cannot be covered by tests.", "anchors": ["python/csqp.py: CSQP.solve", "python/qp_solvers/stagewise_qp.py: reset_params, reset_rho_vec, computeDirection, update_rho_sparse"]}
{"id": "C78", "title": "SQP_CPP: return value and what it certifies", "statement": "The Python class SQP_CPP (python/sqp_cpp.py, on top of Crocoddyl's calcDiff and backwardPass). With the filter line search (the default) solve returns True whatever happens, also when the iterations run out, when every line search fails, and for maxiter = 0, or raises the exception of a failed factorisation; with the merit function it returns False exactly when a line search finds no step among its first nine trials. If it returns True with a residual below the tolerance, the residual is that of the candidate at the beginning of the last iteration with the returned multipliers, not of the returned trajectory, which is that candidate moved by one more step 1, 1/2, ..., 1/512 along a direction computed earlier, or the candidate itself if all trials were rejected.", "quantifier": "every problem, history of calls, guess, maxiter, factorisation routine, floating-point behaviour (certificate: exact arithmetic)", "why_tests_cant": "What every exit of a loop with unbounded iterations certifies is a statement about all runs.", "anchors": ["python/sqp_cpp.py: SQP_CPP.solve, computeDirection, KKT_check, tryStep"]}
{"id": "C79", "title": "SQP_CPP: the direction, and when it is stale", "statement": "When the residual of the multipliers of the previous direction is not below the tolerance, a direction computation that succeeds solves the KKT system of the unregularized quadratic model at the current candidate; when it is below the tolerance, direction and multipliers are left as they were, also those of an earlier call of solve: with the exact optimum as guess a new solver returns it, a solver that solved the same problem before moves away from it, and both return True.", "quantifier": "every problem with symmetric Hessians, every reachable state of the object; exact arithmetic and factorisation for the direction", "why_tests_cant": "All histories of an object cannot be tested.", "anchors": ["python/sqp_cpp.py: SQP_CPP.computeDirection, computeUpdates, allocateData", "src/ddp.cpp: SolverDDP::backwardPass"]}
{"id": "C80", "title": "SQP_CPP with the filter overshoots the solution of linear-quadratic problems", "statement": "On a linear-quadratic problem, from any guess that the stored multipliers do not certify already, with at least two iterations, solve returns True with residual zero; it reaches the exact KKT point X* in the first iteration and returns either X* or X* + 2^-k (X* - X), with gaps -2^-k times those of the guess X. From every dynamically feasible guess it returns the mirror image 2 X* - X, whose cost is that of the guess: the unique optimum is returned only if it was the guess. There is a guess from which the trajectory returned with True and residual zero violates the dynamics.", "quantifier": "every linear-quadratic problem with exact factorisation, every reachable solver state, guess and maxiter >= 2; exact arithmetic", "why_tests_cant": "Ranges over all problems, guesses and histories; the shipped test starts from one infeasible guess, from which all extra trials can be rejected.", "anchors": ["python/sqp_cpp.py: SQP_CPP.solve, computeDirection, tryStep, acceptStep", "tests/python/test_lqr_problem.py"]}
{"id": "C81", "title": "SQP_CPP with the merit function returns False at the exact optimum", "statement": "On a linear-quadratic problem, from every dynamically feasible guess that the stored multipliers do not certify already, with the merit line search and at least two iterations, solve reaches the exact KKT point and returns False there.", "quantifier": "every such problem, reachable solver state, feasible guess and maxiter >= 2; exact arithmetic and factorisation", "why_tests_cant": "Ranges over all problems, guesses and histories.", "anchors": ["python/sqp_cpp.py: SQP_CPP.solve, computeDirection, tryStep"]}
{"id": "C82", "title": "SQP_CPP: the line search compares different norms", "statement": "What an accepted step guarantees: with the filter (at least one entry) the cost does not increase or the total gap is at most T times the previous one; with the merit function cost + mu gap / T after the step is below cost + mu gap before it. Nothing better holds: there is a smooth problem with exact derivatives and positive definite Hessian on which, in both modes, the first iteration accepts a step that increases both the cost and the gap.", "quantifier": "every problem, reachable solver state, guess, iteration; exact arithmetic", "why_tests_cant": "The guarantee concerns every iteration of every run.", "anchors": ["python/sqp_cpp.py: SQP_CPP.calc, tryStep, solve"]}
{"id": "C83", "title": "Python CSQP: residuals, stopping and penalty of the QP loop", "statement": "In every iteration that is a multiple of rho_update_interval, except the first, the Python QP solver sets norm_primal, norm_dual, their scaling norms, kkt_primal and kkt_dual to the exact maxima over the horizon of the corresponding residuals (kkt_dual at the stored costates, over the nodes that have constraints only). The loop stops at the first such iteration with norm_primal and norm_dual within eps_abs + eps_rel times their scaling norms, or after max_qp_iters iterations, and reports the number in qp_iters; it never stops in the first iteration, even if rho_update_interval is 1. The penalty changes only in such iterations and only if the suggested penalty, which is clipped to [rho_min, rho_max], differs from it by more than the tolerance factor; then rows without bounds get rho_min, rows with equal bounds 1000 times the new penalty, all other rows the new penalty.", "quantifier": "every problem, QP options, penalty rule, QP state, iteration, horizon; exact arithmetic", "why_tests_cant": "Residuals are maxima over arbitrary horizons and the stop depends on the whole history of the loop.", "anchors": ["python/qp_solvers/stagewise_qp.py: computeDirection, update_lagrangian_parameters, update_rho_sparse, apply_rho_update"]}
{"id": "C84", "title": "Python CSQP with a dense QP back end: the QP that is solved", "statement": "With methods ProxQP, OSQP, CustomOSQP and StagewiseQPKKT the Python CSQP stacks the subproblem into one dense QP (P, q, equality rows, inequality rows). Its objective is exactly the quadratic model of the cost at the candidate, and its feasible set exactly the steps that satisfy the linearized dynamics closing all gaps and the linearized constraint bounds; every step with dx[0] = 0 is represented. If the back end answers with a KKT point of the dense QP, then dx, du, lag_mul and y read back from the answer satisfy the KKT conditions of the subproblem, and if the model is convex the step is optimal for it. With CustomOSQP's answer marked converged the step is optimal and feasible up to explicit multiples of the thresholds of its stopping test; StagewiseQPKKT's step satisfies the linearized dynamics exactly; a fixed point of either iteration is a KKT point of the subproblem.", "quantifier": "every problem with the same control dimension at all nodes, candidate, horizon, constraint dimensions per node, back end; exact arithmetic", "why_tests_cant": "The correctness of an index layout for all horizons and dimensions, and of the sign conventions of the multipliers for all answers, cannot be tested.", "anchors": ["python/qp_solvers/qpsolvers.py: QPSolvers.computeDirectionFullQP, allocateDataQP", "python/csqp.py: CSQP.calc"]}
{"id": "C85", "title": "CustomOSQP: what its answer is worth", "statement": "optimize_osqp raises iff max_qp_iters or rho_update_interval is 0; its answer does not depend on earlier calls. Whatever the linear solver returns, z is within the bounds, y in their normal cone at z, the penalties are positive and in range, the residuals are those of the returned point, and converged holds iff both are strictly below their thresholds in an iteration that is a positive multiple of the interval and not the first. For a convex QP a converged answer is feasible and optimal up to the thresholds. With an exact linear solver the fixed points of the iteration are exactly the KKT points, every iteration decreases the distance to every solution, and with constant penalties the residual of the best of k iterations is O(1/sqrt k). After every call the penalty of a row is the smallest one if it has no bounds, 1000 times the base if it is an equality, and the base otherwise; without an update due the base is rho_init clamped to its range.", "quantifier": "every QP, size, setting, state of the object, solution and number of iterations; exact arithmetic", "why_tests_cant": "Holds for all QPs and unboundedly many iterations.", "anchors": ["python/qp_solvers/py_osqp.py: CustomOSQP.optimize_osqp, update_rho_osqp, reset_params, quad_prob_update"]}
{"id": "C86", "title": "StagewiseQPKKT: what its answer is worth", "statement": "optimize_boyd raises iff max_qp_iters or rho_update_interval is 0. Whatever the linear solver returns, z is within the bounds and y in their normal cone; the stop and residuals are as the code documents them. With an exact linear solver and independent equality rows the answer satisfies the equalities exactly and its stationarity residual is within |alpha-2| r_dual + |alpha-1| |A'(rho(Ax-z))| + sigma |x - x_prev|; the fixed points are exactly the KKT points; every iteration decreases the distance to every solution, and the best of k iterations is O(1/sqrt k). But converged does not bound the stationarity residual (tolerance 0, gradient 1), and the iterate is kept between calls: the same QP solved twice gives two answers, both marked converged. The penalties of the rows are those of CustomOSQP, but the base goes on from the one the previous call ended with.", "quantifier": "every QP, size, setting, state of the object, solution and number of iterations; exact arithmetic", "why_tests_cant": "Holds for all QPs, histories and unboundedly many iterations.", "anchors": ["python/qp_solvers/stagewise_qp_kkt.py: StagewiseQPKKT.optimize_boyd, update_rho_boyd"]}
{"id": "C87", "title": "Python CSQP with a dense QP solver: exceptions, work, line search and certificate", "statement": "With the solvers written in Python, solve raises iff max_qp_iters or rho_update_interval is 0 and a QP is solved at all (in general: iff the back end raises and is called). It solves exactly one QP per iteration, at most maxiter (plus one with the extra iteration). In iteration i the filter rejects a trial iff one of the last min(filter_size, i+1) iterates is strictly better in cost and gaps; constraint violation plays no role. With the merit function and fixed weights every iteration strictly decreases cost + mu1 gaps + mu2 violation. Whatever the back end answers, a true return means that the candidate with the QP's multipliers satisfies stationarity and feasibility of the nonlinear problem to the stored residual, which is below the tolerance and is the least such bound.", "quantifier": "every problem, horizon, back end (also one that answers nonsense), history of the object, guess, option and iteration limit", "why_tests_cant": "Needs all iterations of all runs and every possible answer of the QP solver.", "anchors": ["python/csqp.py: CSQP.solve, KKT_check", "python/qp_solvers/qpsolvers.py: QPSolvers.computeDirectionFullQP"]}
{"id": "C88", "title": "Python CSQP with an exact dense QP solver solves constrained LQ problems in at most two QPs", "statement": "On a strictly convex linear-quadratic problem with affine constraints, with a back end that answers with KKT points of the QPs it is given, solve with maxiter >= 2 returns true after at most two QPs, and unless the guess already passes the test, the result is the unique optimum of the constrained problem with residual zero (filter line search, or merit function from a feasible guess).", "quantifier": "every such problem, horizon and dimension, every state the object can be in, every initial guess; exact arithmetic", "why_tests_cant": "A statement about the global optimum over all trajectories and all problems of the class.", "anchors": ["python/csqp.py: CSQP.solve", "python/qp_solvers/qpsolvers.py: QPSolvers.computeDirectionFullQP"]}
{"id": "C89", "title": "Python CSQP with a dense QP solver: what a call remembers of earlier calls", "statement": "Two objects with any histories and the same options: if the back end's answers do not depend on earlier QPs (or its memory agrees) and the merit weights are fixed (or the stored multipliers agree), every call of solve has the same outcome, candidate, multipliers, step and residual. Hence with CustomOSQP and fixed weights a used object behaves like a new one. With StagewiseQPKKT it does not: the same call made twice returns two different candidates.", "quantifier": "all histories of both objects (option changes, failed calls, direct method calls, foreign evaluations of the problem), all guesses, all iteration limits >= 1", "why_tests_cant": "Quantifies over all histories of the object.", "anchors": ["python/csqp.py: CSQP.solve", "python/qp_solvers/qpsolvers.py: QPSolvers.computeDirectionFullQP", "python/qp_solvers/py_osqp.py: CustomOSQP.optimize_osqp", "python/qp_solvers/stagewise_qp_kkt.py: StagewiseQPKKT.optimize_boyd"]}
{"id": "C90", "title": "SolverKKT's line search: which step is taken and what it guarantees", "statement": "The two numbers SolverKKT::expectedImprovement stores are minus the first and second derivative of the cost along the step. An iteration that does not stop at its residual test takes the first step length for which the predicted decrease is below th_grad, or the trajectory is not declared feasible, or the cost decreases by more than th_acceptstep times the predicted decrease; it then declares the trajectory feasible; otherwise nothing changes. With convex costs and an exact linear solver, from a trajectory that satisfies the dynamics and is declared feasible, the predicted decrease is (a - a^2/2) q with q >= 0, and unless q < th_grad the cost never increases. On convex linear-quadratic problems solve from a feasible guess returns true within two iterations with an exact KKT point (unless the residual test passes at the guess).", "quantifier": "every problem, horizon, dimension, reachable state, list of step lengths, threshold and (for the search) linear solver; exact arithmetic", "why_tests_cant": "Holds for all problems and states of the solver; the descent statement compares costs over all trajectories the solver can reach.", "anchors": ["src/kkt.cpp: solve, tryStep, expectedImprovement"]}
{"id": "C91", "title": "Python CSQP with HPIPM: the problems passed to HPIPM are the stagewise QP, and an exact HPIPM gives its minimiser", "statement": "The optimal-control QP built for HPIPM_OCP (its free first state replaced by 0) and the dense QP built for HPIPM_DENSE have the same feasible steps and the same objective as the linearised problem of the current candidate: cost expansion, shooting gaps, linearised constraints between the bounds (infinite bounds switched off). If HPIPM answers with a KKT point, the direction solves that QP; the kept multipliers are those of the upper bounds, and the KKT conditions hold after subtracting the multipliers of the lower bounds, which are not read. Without lower bounds the stored multipliers are the KKT multipliers (HPIPM_OCP: with DEBUG), so the results for exact back ends (C88) apply.", "quantifier": "every problem, horizon and (for the reading of controls: one control) dimension, every candidate, every HPIPM answer, every step; exact arithmetic", "why_tests_cant": "A statement about all problems and candidates, and about all feasible steps of a QP.", "anchors": ["python/qp_solvers/qpsolvers.py: QPSolvers.computeDirectionFullQP"]}
{"id": "C92", "title": "Python CSQP with HPIPM: which solutions solve can recognise", "statement": "HPIPM_OCP as constructed stores zero multipliers, so solve returns true only at points where the gradient of the cost itself is within the tolerance, whatever HPIPM answers; a constrained linear-quadratic problem is exhibited on which it never returns true although its candidate is the optimum after one iteration. HPIPM_DENSE stores only multipliers of upper bounds: its certificates have nonnegative multipliers, and a problem with an active lower bound is exhibited on which it never returns true although its candidate is the optimum after one iteration.", "quantifier": "every problem, every HPIPM (HPIPM_DENSE: exact), every history of the object, every guess, options and iteration limit; exact arithmetic", "why_tests_cant": "'never returns true' quantifies over all guesses, options, histories and answers of HPIPM.", "anchors": ["python/qp_solvers/qpsolvers.py: QPSolvers.computeDirectionFullQP", "python/csqp.py: CSQP.solve"]}
{"id": "C93", "title": "SolverKKT: what a call of solve remembers", "statement": "Two SolverKKT objects for the same problem with the same parameters, whatever was done with them before: a call of solve with is_feasible = false (the default) and a nonempty list of step lengths gives both the same returned value, trajectory, feasibility flag, iteration count and callback events and, if maxiter >= 1, the same cost, direction, multipliers, residual and expected improvement. With is_feasible = true the same holds if the two also agree in was_feasible, which solve does not reset; otherwise they can differ: a problem is exhibited, with default parameters, on which the same call returns false on a new object and true on one that has solved before.", "quantifier": "every problem with T >= 1, every pair of histories, every call; a linear solver that reads only the system it is given; any arithmetic", "why_tests_cant": "the statement compares all histories of an object; unit tests start from fresh solvers.", "anchors": ["src/kkt.cpp: SolverKKT::solve, calcDiff, computeDirection, stoppingCriteria", "include/mim_solvers/kkt.hpp: was_feasible_ (SolverAbstract)"]}
{"id": "C94", "title": "SolverSQP on nonlinear problems: the line search cannot fail for small steps", "statement": "If calcDiff reports the true first derivatives at the current iterate, the cost is not declared to blow up there, the residual is nonzero and no earlier line search of the call failed, then every sufficiently small step length is acceptable: with the filter for every filter size, and with the merit function if its weight exceeds every multiplier of the dynamics and the regularized cost model has nonnegative curvature along the direction (neither is needed without gaps). So a list of step lengths with a sufficiently small member makes the search succeed; nothing is asked of the Hessians but symmetry.", "quantifier": "every nonlinear problem, horizon, dimension, reachable solver, guess, regularization, iteration and filter size; exact arithmetic, exact Cholesky factorization", "why_tests_cant": "a statement about all sufficiently small step lengths of all nonlinear problems.", "anchors": ["src/sqp.cpp: SolverSQP::solve, computeDirection, tryStep", "include/mim_solvers/sqp.hpp"]}
{"id": "C95", "title": "DDP and FDDP on nonlinear problems: the line search cannot fail for small steps from a trajectory that satisfies the dynamics", "statement": "If the current trajectory satisfies the dynamics, calcDiff reports the true first derivatives there and the cost is not declared to blow up, then with th_grad > 0 and th_acceptstep < 1 every sufficiently small step length is acceptable for SolverDDP, and for SolverFDDP without the filter if the trajectory is declared feasible. So a list of step lengths with a sufficiently small member makes DDP's search succeed.", "quantifier": "every nonlinear problem (FDDP: Euclidean states), horizon, dimension, state of the solver, guess, regularization and iteration; exact arithmetic, exact Cholesky factorization", "why_tests_cant": "a statement about all sufficiently small step lengths of all nonlinear problems.", "anchors": ["src/ddp.cpp: SolverDDP::solve, forwardPass, expectedImprovement", "src/fddp.cpp: SolverFDDP::solve, forwardPass, updateExpectedImprovement, expectedImprovement"]}
{"id": "C96", "title": "FDDP with open gaps: its predicted decrease is wrong in first order", "statement": "Along FDDP's trials the cost decreases at the rate dg + m with m = sum_t f_t'Vxx_t dx_t (f the gaps, dx the velocity of the states), but the decrease FDDP predicts for a step a has the rate dg: the correction is computed from the shortened trial and scaled by a again. Hence, without the filter, all sufficiently small steps are accepted if dg > 0 and dg + m > th_acceptstep dg (or dg < th_grad), or dg < 0 and dg + m > th_acceptnegstep dg, and all are refused if these inequalities hold strictly the other way round. A nonlinear problem and a guess are exhibited, with default thresholds, where every sufficiently small step decreases both cost and gap and is refused.", "quantifier": "every nonlinear problem with Euclidean states, horizon, dimension, state of the solver, guess, regularization and iteration; exact arithmetic, exact Cholesky factorization", "why_tests_cant": "a statement about all sufficiently small step lengths of all nonlinear problems.", "anchors": ["src/fddp.cpp: SolverFDDP::expectedImprovement, updateExpectedImprovement, solve"]}
{"id": "C97", "title": "SolverPROXQP on nonlinear constrained problems: the line search cannot fail for small steps", "statement": "If calcDiff reports the true first derivatives of cost, dynamics and constraints at the current iterate, the Hessians are positive on steps that keep the linearised dynamics and start with zero, the cost is not declared to blow up and ProxSuite solved the QP exactly, then either the iterate and the multipliers satisfy the first-order conditions of the constrained problem exactly, or every sufficiently small step length is acceptable: with the filter for every filter size, and with the merit function if its weights exceed the multipliers of the QP (or the iterate is feasible). So a list of step lengths with a sufficiently small member makes the search succeed.", "quantifier": "every nonlinear constrained problem, horizon, dimension, reachable solver, guess, iteration and filter size; exact arithmetic, exact QP solver", "why_tests_cant": "a statement about all sufficiently small step lengths of all nonlinear constrained problems.", "anchors": ["src/proxqp.cpp: SolverPROXQP::solve, computeDirection, tryStep, checkKKTConditions"]}
{"id": "C98", "title": "SolverCSQP on nonlinear constrained problems: the line search cannot fail for small steps", "statement": "If calcDiff reports the true first derivatives at the current iterate and the cost is not declared to blow up there: with the filter (every size), as long as the iterate has shooting gaps every sufficiently small step length is acceptable, however inaccurately ADMM solved the QP; without gaps, if ADMM solved the QP, then either the iterate and the multipliers satisfy the first-order conditions exactly or every sufficiently small step length is acceptable; the same with the merit function if its weights (given, or automatic) exceed the multipliers of the QP or the iterate is feasible.", "quantifier": "every nonlinear constrained problem, horizon, dimension, solver state with a full filter, guess, regularization, iteration, filter size, number of ADMM iterations and thread schedule; exact arithmetic", "why_tests_cant": "a statement about all sufficiently small step lengths of all nonlinear constrained problems.", "anchors": ["src/csqp.cpp: SolverCSQP::solve, computeDirection, tryStep, forwardPass"]}
{"id": "C99", "title": "CallbackLogger: one aligned row per callback, and what the rows mean", "statement": "Attached to a SolverCSQP or SolverSQP, mim_solvers.CallbackLogger adds under each of its keys exactly one entry per call of the callback, the value of that attribute at that moment, and changes nothing else; the calls of one solve are exactly those of the KKT checks. SolverSQP: the merit of a row is cost + mu * gap of the same row, and cost and gaps are those of the logged trajectory as long as no line search of the call failed. SolverCSQP: cost, gap and constraint norm of a row belong to the logged trajectory, but the merit of each row is that of the row before (the first is left over from before the call). Attached to SolverDDP or SolverFDDP, which pass the string SQP, the call raises AttributeError after five keys got an entry; for any other string NotImplementedError is raised and nothing is recorded.", "quantifier": "every problem, solver state, guess, number of iterations and callbacks, dictionary contents, thread schedule and arithmetic (floating-point as well)", "why_tests_cant": "the rows are a statement about all histories of calls; a unit test sees the rows of one run.", "anchors": ["bindings/mim_solvers/__init__.py: CallbackLogger", "src/csqp.cpp: SolverCSQP::solve", "src/sqp.cpp: SolverSQP::solve", "bindings/sqp.cpp, csqp.cpp, ddp.cpp, fddp.cpp: exposed attributes"]}
{"id": "C100", "title": "Settings read back as the last accepted write, over every history of writes and solves", "statement": "For SolverDDP, SolverFDDP, SolverSQP, SolverCSQP and SolverPROXQP: writing a setting either stores the value and changes no other setting, or (value out of range, or of the wrong type) raises an exception and changes nothing at all; solves, whether they converge, fail or raise, change no setting. So after any history of writes and solves each setting reads as the last accepted write, or as it was if there was none. The only write without a defined result is an empty list of step lengths.", "quantifier": "every history of writes and solves, every setting and value (NaN included), problem, solver state and arithmetic; for CSQP every clock and thread schedule, for PROXQP every answer of ProxSuite", "why_tests_cant": "a statement about all histories; a unit test sees one write and one read.", "anchors": ["include/mim_solvers/ddp.hpp, fddp.hpp, sqp.hpp, csqp.hpp, csqp_proxqp.hpp: set_*, get_*", "src/ddp.cpp: set_*, get_*", "bindings/*.cpp: add_property"]}
{"id": "C101", "title": "SolverSQP: the unit and the zero of the cost function do not matter, except for the stopping test", "statement": "Adding a constant to the cost of each node (different constants at different nodes) changes nothing but the reported cost: solve returns the same value after the same iterations with the same trajectory, residual, multipliers, policy and direction. Multiplying all costs by c > 0 as well, with reg_min, reg_max, the initial regularization and mu in the new unit, leaves trajectories, policy and directions after every number of iterations unchanged, while costs, merits and multipliers are the old ones in the new unit; with tolerance 0 the returned values agree too. With a positive tolerance they need not: the residual is the maximum of the stationarity, which has the unit of the cost, and the gaps, which do not, so neither the same tolerance nor the tolerance in the new unit stops at the same iteration.", "quantifier": "every problem, horizon, dimension, c > 0, offsets, configuration (filter or merit, every filter size), guess, regularization and number of iterations; exact arithmetic without the blow-up threshold 1e30, a Cholesky solver that respects the unit", "why_tests_cant": "a relation between all pairs of runs on all problems.", "anchors": ["src/sqp.cpp: SolverSQP::solve, computeDirection, tryStep, checkKKTConditions", "src/ddp.cpp: SolverDDP::backwardPass, increaseRegularization, decreaseRegularization"]}
{"id": "C102", "title": "SolverSQP: a solve may be split into several calls (model-predictive control)", "statement": "If a call of solve with maxiter = m1 used all its iterations and each of its line searches found a step, then calling solve again with maxiter = m2, the solver's own trajectory as the guess and its own regularization as reginit gives what one call with maxiter = m1 + m2 would have given: the same return value and trajectory and, if it converges, the same cost, residual, multipliers, policy and direction. (Merit function, or filter of size 1, the default; no extra iteration.) After a failed line search this is false: the single call goes on with the outdated data of the refused trial, the split one does not.", "quantifier": "every problem, horizon, dimension, reachable solver, guess, m1, m2, regularization and arithmetic (floating-point as well)", "why_tests_cant": "a relation between all pairs of call sequences on all problems.", "anchors": ["src/sqp.cpp: SolverSQP::solve", "src/ddp.cpp: SolverDDP::calcDiff"]}
{"id": "C103", "title": "SolverDDP and SolverFDDP: a solve may be split into several calls", "statement": "If a call of solve with maxiter = m1 used all its iterations, then calling solve again with maxiter = m2, the solver's own trajectory as the guess, its is_feasible flag and its regularization as reginit gives what one call with maxiter = m1 + m2 would have given: the same return value, trajectory, flag and regularization and, if it converges, the same cost, gaps, residual, multipliers, policy and value function. Unlike for SolverSQP (C102) this also holds after failed line searches. (SolverFDDP: merit-style test, or filter of size at most 1, the default.)", "quantifier": "every problem, horizon, dimension, solver state, guess, flag, m1, m2, regularization and arithmetic (floating-point as well)", "why_tests_cant": "a relation between all pairs of call sequences on all problems.", "anchors": ["src/ddp.cpp: SolverDDP::solve, calcDiff, computeDirection", "src/fddp.cpp: SolverFDDP::solve, computeDirection"]}
{"id": "C104", "title": "SolverCSQP: a solve may be split into several calls, up to the penalties", "statement": "If a call of solve with maxiter = m1 > 0 used all its iterations and left penalties that reset_rho_vec would not change (or reset_rho is set), then calling solve again with maxiter = m2 > 0, the solver's own trajectory as the guess and its regularization as reginit gives what one call with maxiter = m1 + m2 would have given: the same outcome, trajectory and regularization and, if it converges, the same report (cost, gaps, violation, residual, multipliers, step, penalties, policy, derivatives). Multipliers and step are handed over in the solver. Without the condition on the penalties this fails: adapted penalties are forgotten by a new call.", "quantifier": "every problem, horizon, dimension, reachable solver state, guess, m1, m2, regularization, inner iteration counts and arithmetic; single threaded, no time limit reached, no extra iteration, merit-style test or filter of size at most 1 (the default)", "why_tests_cant": "a relation between all pairs of call sequences on all problems.", "anchors": ["src/csqp.cpp: SolverCSQP::solve, calc, computeDirection, reset_rho_vec, reset_params"]}
{"id": "C105", "title": "SolverPROXQP: a solve may be split into several calls", "statement": "If a call of solve with maxiter = m1 used all its iterations, then calling solve again with maxiter = m2, the solver's own trajectory as the guess and its regularization as reginit gives what one call with maxiter = m1 + m2 would have given: the same return value, trajectory, regularization and multipliers and, if it converges, the same report (residual, cost, gaps, violation, merit, step, QP, derivatives). The multipliers the first KKT check of the second call needs are handed over in the solver.", "quantifier": "every problem, horizon, dimension, reachable solver state, guess, m1, m2, regularization, deterministic inner QP solver (right or wrong) and arithmetic; merit-style test or filter of size at most 1 (the default)", "why_tests_cant": "a relation between all pairs of call sequences on all problems.", "anchors": ["src/csqp_proxqp.cpp: SolverPROXQP::solve, calc, computeDirection, tryStep, checkKKTConditions"]}
{"id": "C106", "title": "Array sizes stay right when a problem's models are replaced between solves (and where they do not)", "statement": "Construct a SolverDDP, SolverFDDP or SolverSQP on a problem, then let models of nodes be replaced (updateModel, updateNode, circularAppend: other numbers of controls and constraints, same horizon and state space) and solves be called in any order: no Eigen operation of any solve ever meets operands that do not conform, no vector is indexed outside its range, and every size Crocoddyl requires is right, whatever the control flow and wherever exceptions stop the passes; when no replacement is pending all arrays the getters expose have the sizes of the current problem. For SolverCSQP this fails: its first update of the ADMM penalties writes outside rho_vec_ exactly when a node has more constraints than at construction, because it does not override resizeData. And since reading is_updated() clears it, the second of two solvers that share a problem is not resized: if a node lost its controls, every solve of it that accepts a step meets a wrong size.", "quantifier": "every horizon, state dimension, assignment of control and constraint counts to nodes, and every history of model replacements, solves, rejected warm starts, truncated passes and orders of passes", "why_tests_cant": "a test replaces a model once, by one of the same size; the property quantifies over all sequences of sizes, and an out-of-range write in a release build usually goes unnoticed.", "anchors": ["src/ddp.cpp: SolverDDP::allocateData, resizeData, backwardPass, computeGains, forwardPass, checkKKTConditions, stoppingCriteria, expectedImprovement", "src/fddp.cpp: SolverFDDP::SolverFDDP, forwardPass, expectedImprovement, updateExpectedImprovement", "src/sqp.cpp: SolverSQP::SolverSQP, forwardPass, tryStep, checkKKTConditions", "src/csqp.cpp: SolverCSQP::SolverCSQP, solve, apply_rho_update"]}
{"id": "C107", "title": "Array sizes of SolverCSQP: right as long as the models are not replaced, stale afterwards", "statement": "Construct a SolverCSQP on a problem whose nodes have any numbers of controls and inequality constraints (also 0, also different at every node): in any sequence of solves no Eigen operation ever meets operands that do not conform and no vector is indexed outside its range, whatever the control flow, the settings (single- or multithreaded passes, penalty updates or not, initial guess or not, which residuals) and wherever exceptions stop the passes; after every solve all arrays the getters expose have the sizes of the problem. After a model has been replaced this fails: if a node got another, non-zero, number of controls and the initial guess of the QP is disabled, the first backward pass of the next solve adds a stale du to Lu; if a node lost all its controls, then whatever the solve does before, the first QP iteration without penalty update applies a Cholesky factorisation of the old size to an empty vector. But if the numbers of constraints stay the same, no node loses all its controls and the initial guess is enabled (the default), the next solve of the single-threaded code and all later solves work, and all arrays the getters expose get the new sizes.", "quantifier": "every horizon, state dimension, assignment of control and constraint counts to nodes, every sequence of solves, every order and truncation of their passes, every replacement of models", "why_tests_cant": "tests use problems whose nodes all have the same sizes, and an out-of-range access in a release build usually goes unnoticed.", "anchors": ["src/csqp.cpp: SolverCSQP::SolverCSQP, calc, reset_params, apply_rho_update, backwardPass, backwardPass_mt, backwardPass_without_constraints, backwardPass_without_rho_update, backwardPass_without_rho_update_mt, forwardPass, forwardPass_without_constraints, update_lagrangian_parameters, checkKKTConditions, tryStep", "src/ddp.cpp: SolverDDP::allocateData, resizeData, computeGains"]}
