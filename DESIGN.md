# Formal model of mim_solvers in Lean 4 — design

`properties.jsonl` holds the English properties, `MANIFEST.json` the theorem names, `seeded/LOG.jsonl` the wrong programs the
theorems were tried against. Code is cited as `file:lines` of /repo in the comment of every model definition.

## 1. How the code is modelled

* **Scalars.** Every function is modelled once, polymorphically over a scalar type `F` with the *law-free* operations
  of C++ doubles (`+ - * /`, literals, comparisons as `Bool`, `isnan`, Crocoddyl's `raiseIfNaN`, `sqrt`, and Eigen's
  reductions `sum` and `lpNorm<Infinity>`) – class `FloatOps` in `Base/Scalar`. Control-flow theorems are proved for
  *every* such `F`, hence for IEEE doubles with any rounding and any reduction order. Numerical theorems are proved
  for `F := K`, an arbitrary linearly ordered field (instance `exactOps`, `raiseIfNaN v = (v ≥ 1e30)`). Special-value theorems use `Dbl K`
  = NaN | −inf | finite | +inf (`Base/Dbl`, class `IEEE` lists the comparison laws used).
* **Linear algebra.** Vectors are `Fin n → F`, matrices `Matrix (Fin m) (Fin n) F`; products are built from the abstract
  reduction `sum` and coincide with Mathlib's over a field. `Eigen::LLT` is a parameter: `llt A = none` is
  `info() != Success`, `llt A = some s` gives the solve function. Exact theorems assume an *exact solver*: succeeds
  iff `A` is symmetric positive definite, and then solves (`IsSolver`, `LLT` laws; `Spec/Examples.llt1` inhabits it).
  `SolverKKT` and `SolverPROXQP` stack stages in dense matrices addressed by running offsets: `Base/Flat`.
* **Crocoddyl** (`Model/Crocoddyl`). A `Problem` record: horizon `T`, `ndx`, dimensions `nu t`, `ng t` that vary with
  time, a state manifold (`X`, `integrate`, `diff`, `Jdiff`), per node `calc` (cost, xnext, g) and `calcDiff`
  (derivatives), bounds (`none` = infinite), `x0`. Stored action data is part of the solver state, so *stale data is visible*.
* **Memory.** Members are record fields; `std::vector`s indexed by node are functions `ℕ → _` updated with
  `Function.update`; an exception is a result `exn s` that keeps the mutated state; `for` loops are structural folds;
  the `while(true)` retry loops take fuel (`none` = still looping) and theorems quantify over all fuel.
  Undefined behaviour that a caller can reach is a distinct result (`static_cast` in the verbose callback, the empty
  `alphas`), not assumed away.
* **Time.** The clock is an arbitrary stream of readings consumed by each `take_time`.
* **Threads.** `Base/Omp`: a `parallel for` distributes its iterations over threads in any way, each thread runs its
  iterations as sequences of *assignments*, threads interleave assignment by assignment in any order, reductions are
  combined in any order and start from the identity; an exception that leaves the region terminates the program.
  Used for `tryStep` and `update_lagrangian_parameters` (C47, C50) and the whole solve (C52). The loops of the
  `*_mt` backward passes (C26) each touch only data of their own index; their iterations are atomic and run in an arbitrary order.

## 2. Property by property

| id | modelled by | how it is proved |
|----|-------------|------------------|
| C01 | `SQP.solve`, any `F` | induction over the remaining iterations and retry fuel; the only `true` exits |
| C02 | `SQP.checkKKT` over `K` | loop invariant: the maximum is ≤ tol iff every part is |
| C03 | `CSQP.solve`, `CSQP.checkKKT` | as C01/C02; ℚ witness without complementarity |
| C04 | `DDP.solve` for `Kind.ddp`/`Kind.fddp` | as C01; C17 makes it a statement about the trajectory |
| C05 | `PROX.solve` | as C01; witness: returned multipliers are newer than the checked ones |
| C06, C41 | `KKT.*` block assembly, arbitrary LU | block algebra on offsets; ℚ witnesses of the wrong sign and the ignored gaps |
| C07, C08, C38 | all solve loops | invariants of the loops |
| C09 | retry loop with fuel | ranking argument with an explicit bound; divergence by induction on fuel |
| C10, C37 | regularization updates | invariant; case analysis with the default step lengths |
| C11–C13 | `CBuf` = boost::circular_buffer, filter test | refinement to the list of pairs pushed in this solve (`FilterWF`) |
| C14 | acceptance tests over `IEEE` (SQP, FDDP, CSQP, PROXQP) | case analysis; witness that NaN passes the filter |
| C15, C16 | line searches | invariant relating cached cost and gaps to the trajectory; first index of the loop that passes |
| C17 | all action data in the state | freshness invariant over iterations; ℚ witness for SQP's violation |
| C18, C19 | backward/forward pass over `K` | Riccati backward induction; completing the square |
| C20–C23 | trial steps of SQP, DDP, FDDP, CSQP | induction over nodes, algebra; witnesses for FDDP's gap norm |
| C24, C27, C28, C32, C53, C54 | `CQP.iter`, `CQP.loop` | each pass = Riccati solve of the augmented QP; ADMM step algebra; Fejér monotonicity; finite-sum argument |
| C25, C26 | the five backward passes | cache invariant; permutation invariance |
| C29–C31, C33, C34, C43, C45 | rho handling, clock, remove_reg, warm start | invariants and case analysis over any `F` |
| C35, C36, C49 | setters, defaults | decision logic over any `F`, NaN over `IEEE` |
| C39 | `Model/Callbacks` | list lengths and the formatting state of the stream |
| C40 | PROXQP assembly | block indices; witness for varying `nu` |
| C42 | `Model/Construct` | sum of `nh` in `ZMod 2^64` |
| C44, C51, C58 | SQP on LQ problems, at KKT points, on strictly convex LQ problems | C18 + C20, C57 + global minimality, end to end through `solve` |
| C59, C60 | DDP at KKT points, on strictly convex LQ problems | multipliers left by a forward pass (`Lemmas/DDPMult`), one full step (`Lemmas/DDPFull`), C57, uniqueness of the direction; end to end through `solve` (`Props/DDPConvex`) |
| C61 | FDDP with its filter on one problem | the filter refuses trials not better in cost or computed gap; loop invariant 'the guess is still there' |
| C62, C63 | FDDP at KKT points; FDDP without the filter on strictly convex LQ problems | as C59, C60, plus the multipliers of refused trials (`Lemmas/FDDPMult`) and exactness of the predicted improvement |
| C64 | cost, dynamics, KKT conditions as in the specification; true returns of SQP/DDP/FDDP | telescoping sum of the gradient inequalities along the multipliers |
| C65 | the same with affine constraints; true returns of CSQP and PROXQP | as C64; rows bounded by the sign of the multiplier; CSQP: normal cone of the last QP iteration (C27); PROXQP: induction over iterations with an exact QP solver |
| C66 | CSQP backward passes, `computeDirection`, `solve` | success of the sweep from the existence of a Riccati recursion (C57); curvature of the augmented problem = model + σ + penalties; induction over the heads of solve |
| C67 | CSQP `solve`, `computeDirection` started at an exact KKT point | the zero step and its multipliers solve the LQ problem of every ADMM iteration; uniqueness of the Riccati solution; projection leaves `z = 0`, `y`; induction over QP iterations. `PROX.solve`: the first QP has the zero step as unique solution; its multipliers pass the second test |
| C68 | `PySQP` (Model/PySQP), python/sqp.py function by function | loop invariants of `computeDirection` ⇒ Riccati recursion; residual as in C02; relation between two runs (`Alike`, `Dirs`) for the history |
| C69 | `SQP` and `PySQP` side by side | both directions solve the same LQ problem, whose solution is unique (C18, C68); C57 for success; line search laws of C10 and of `PySQP.search` |
| C70 | `PySQP.solve` | fixed point of the iteration (`Stuck`) by induction on maxiter; case analysis of all exits; ℚ witnesses |
| C71 | `PROX.solve` with an exact QP solver | the QP answer is the step to the unique minimiser (convexity of the QP, strict by the controls); it passes the filter or is zero; second test exact |
| C72 | `BP` after `solve` of SQP, DDP, `CQP.step` | Riccati recursion, completing the square from every node on; ℚ witnesses for the limits |
| C73 | `PyCSQP` (Model/PyCSQP), csqp.py and stagewise_qp.py function by function | invariants of the ADMM loop, `kktCheck_le`; reachable states have `dx[0] = 0` |
| C74 | `PyCSQP` and `CSQP` | simulation relation `Twin` through every pass, penalty update and norm of one QP iteration, then induction over QP iterations and over outer iterations |
| C75 | `PyCSQP.search`, `solve` | the filter deque holds the last iterates (`Memory`, induction over iterations); gaps contract along every step that follows the linearised dynamics; ℚ witnesses |
| C76 | `PyCSQP.solve` | case analysis of all exits |
| C77 | two runs of `PyCSQP.solve` | relation `Before`/`Dirs` through all passes, for arbitrary scalars |
| C78, C79 | `SQPCpp` (Model/PyCppSQP), sqp_cpp.py function by function over `backwardPass` of Model/DDP | case analysis of all exits, `Heads`/`Ends` of the loop, Riccati recursion; ℚ witness for the history |
| C80, C81 | `SQPCpp.solve` on linear-quadratic problems | first iteration is a Newton step, the cost along it is a parabola with minimum at 1; second iteration does not recompute the direction |
| C82 | `SQPCpp.search` | filter memory invariant (`Heads.full`), L1 norms; ℚ witness |
| C83 | `PyQP.step/loop/updateLag/updateRho` | least-bound characterisation of every norm by induction over the nodes; the loop as first passing iteration |
| C84 | `PyDense.assemble/toOQP/toBQP`, `PyFull.readAnswer/computeDirection` | block layout of the dense matrices by induction over the nodes (shared `Spec/Stacked` with PROXQP); KKT of the dense QP ↔ KKT of the subproblem row by row |
| C85 | `OState.*` (py_osqp.py) | loop invariants; convexity inequality; monotone-operator inequality for the ADMM step; telescoping |
| C86 | `BState.*` (stagewise_qp_kkt.py) | as C85, with exact equality rows; two counterexamples evaluated over ℚ |
| C87 | `PyFull.solve` over an arbitrary `Backend` | inductive relation of the iterations (`Heads`/`Ends`), as C73–C75 |
| C88 | `PyFull.solve`, back end assumed exact (`BackExact`) | the first QP is the problem itself, second pass has residual 0; uniqueness from strict convexity |
| C89 | `PyFull.solve` | two runs in lock step (`Before`/`After`), the line search of C77; the Boyd counterexample evaluated over ℚ |
| C90 | `KKT.improve`, `KKT.trial`, `KKT.search`, `KKT.body` | sums over the stacked system by kind and stage; induction on the list of step lengths; telescoping of the multipliers |
| C91 | `ocp`, `toHDense`, `hpipmOcp`, `hpipmDense` over an arbitrary HPIPM | invariant of the two assembly loops (`OcpUpTo`), objective and feasible set compared node by node, HPIPM's KKT conditions translated to `QPKKT` |
| C92 | `PyFull.solve` with the HPIPM back ends | the certificate of C87 with the stored multipliers; two concrete problems, optimum proved by completing a product |
| C93 | `KKT.solve` from two states of the object | the assembled system depends on the trajectory only (invariant: the pattern of the matrix, `fs = 0`); simulation over the loop; with `is_feasible = false` the first trial is accepted and overwrites `was_feasible_`; a concrete problem for the other case |
| C94 | `SQP.retry`, `Acceptable` of the state the line search of iteration `n` starts in; `Spec.TrueDerivs` (one-sided directional derivatives, ε–δ in an ordered field) | KKT system of the direction gives the slope of the cost and of the gap norm; induction over the iterations: no older filter entry dominates the iterate; a nonlinear ℚ-problem meets all hypotheses |
| C95 | `DDP.retry`, `AcceptDDP`, `AcceptFDDP`, `Policy.X` (closed-loop rollout); `Spec.TrueDerivsAlong` (chain rule along curves) | induction over the nodes: velocity of the rollout; telescoping with the Riccati recursion gives the slope of the cost |
| C96 | `AcceptFDDP`, `predictedFDDP`, `dvAt` with open gaps | as C95; the two slopes differ by `Σ f·Vxx δx`; witness over ℚ |
| C97 | `PROX.retry`, `Acceptable`; `Spec.TrueConDerivs`, `Spec.ReducedPos`, `QPKKT` of the exact dense QP | the QP's KKT system gives the slope of the cost; each violated row decreases in first order because the linearised row is feasible; `|violation|`-weighted multipliers bound the slope of the cost; no older filter entry dominates the iterate |
| C98 | `CSQP.direction`, `Acceptable` with the filter and merit function of CSQP | (a) only the linearised dynamics of the direction (exact even when ADMM is not) is used; (b), (c) as C97, under `QPKKT` of the ADMM result (C28 gives it) |
| C99 | `Model/Logger`: `CallbackLogger` (a dictionary of lists, the exposed attributes), `solveCb`: the states in which the callbacks of a solve run | induction on the list of calls; `solveCb` follows the loop of `solve`, an invariant links the merit to the callback before; attribute tables read off the bindings |
| C100 | `Model/Attributes`: getters and setters of the five solvers, histories of writes and solves | frame lemmas of `solve`; induction on the history; `Holds` names the last accepted write independently of the run |
| C101 | `Spec/Units`: problem with costs `c · cost + D t`; `SolverSQP` on both problems, exact arithmetic with `bad = false` | two-run simulation (`Lemmas/SQPUnits`, `SQPUnits2`) through backward pass, forward pass, retry loop, trials, filter and merit test, regularization; the residual splits into a part that scales and one that does not |
| C102 | `SolverSQP`: `solve m1` then `solve m2` against `solve (m1 + m2)` | two-run simulation in which the iteration counters differ (`Lemmas/SQPSplit`); freshness of the datas from C17, first state from C07, one regularization from C10 |
| C103 | `DDP.solve` for both kinds: `solve m1` then `solve m2` against `solve (m1 + m2)` | two-run simulation (`Lemmas/DDPSplit`) that compares neither the iteration counter, nor `recalcDiff`, nor the stored costs and next states: both runs satisfy `HeadInv`, so they work with the evaluation of the same candidate |
| C104 | `CSQP.solve m1` then `solve m2` against `solve (m1 + m2)` | two-run simulation that compares everything but the iteration counter (`Lemmas/CSQPSplit`); the counter matters for the reset of the penalties at iteration 0 and for how far the filter looks back, hence the two conditions; witness over ℚ that adapted penalties are lost |
| C105 | `PROX.solve m1` then `solve m2` against `solve (m1 + m2)` | two-run simulation that compares everything but the iteration counter (`Lemmas/ProxSplit`); ProxSuite is any deterministic function of the QP |
| C106 | `Model/Shapes`: the passes of DDP, FDDP and SQP as lists of Eigen statements over shapes; `construct`, `Sys.evs`; `Spec/Shapes`: the table of sizes | every statement keeps the table and reads only elements sized before (`Flow`, a definition-before-use check proved sound); induction on histories; for CSQP the first out-of-range index is exhibited for every problem |
| C107 | `Model/ShapesCSQP`: the constructor and all passes of `SolverCSQP` over shapes; `Spec/ShapesCSQP`: its table of sizes | every truncation of every pass keeps the table outside the scratch matrix `FuTVxx_p_[0]`, which changes size within a pass (`Keeps`, with a table per node for the scratch matrix); for replaced models the failing statement is exhibited: no statement before it writes `du_`, resp. the factorisation and the gradient of a node without controls; for the initial guess the stale `du_`, `dutilde_`, factorisations are shown to be assigned before they are read (`Flow.gain`: what is known to be right grows by what a pass writes) |
| C46 | CSQP with `ng = 0` | uniqueness of the minimiser |
| C47, C50, C52 | `Model/Parallel`, `Model/ParallelSolve` | every interleaving refines the sequential loop |
| C48 | stopping criteria of DDP | algebra; noninterference |
| C55 | two runs from different histories, for SQP, DDP, FDDP, CSQP (single- and multi-threaded) and PROXQP | relational invariant carried through QP loop, line search and solve loop; ℚ witnesses where history leaks |
| C56 | exits of `solve` | case split of the loop body, induction |
| C57 | backward pass | Riccati factorisation exists iff the quadratic form is positive on the directions |

Properties added later are listed in `MANIFEST.json` with a note on the method.

## 3. What is not modelled

* Python: `python/sqp.py` is modelled (C68-C70; SciPy's `cho_factor` is the parameter `llt`, NumPy arrays are values, the caller's lists are
  not modelled); `python/csqp.py` with `python/qp_solvers/stagewise_qp.py` is modelled for `method = "StagewiseQP"` (C73-C77; `eigenpy.LLT` is the parameter
  `PyLLT`: it never raises, a failed factorisation answers with arbitrary numbers). The printed text is not modelled. `python/sqp_cpp.py` is modelled (C78-C82)
  under the assumption that `calcDiff` and `backwardPass` of Crocoddyl's own `SolverFDDP`, from which it derives, are those of
  /repo/src/ddp.cpp (a copy of them), with the regularization 0 that nobody sets. The dense back ends `python/qp_solvers/{qpsolvers,py_osqp,stagewise_qp_kkt}.py` are modelled in
  `Model/PyDense` (C84-C86): assembly, reading back, `CustomOSQP` and `StagewiseQPKKT` completely (the residuals that are only printed and the
  timing excepted); the packages ProxQP, OSQP and HPIPM are arbitrary functions (C91, C92). Of the HPIPM branches (qpsolvers.py:364-858)
  the residuals and assertions computed under `BENCHMARK` and `DEBUG` are not modelled; `hpipmOcp` has `DEBUG` as a parameter only for what is stored.
* `bindings/` (except `CallbackLogger.__call__` and the attributes it reads: C99; the settings: C100; `plotConvergence` and the plotting helpers are not modelled) and `include/mim_solvers/python.hpp`; `main.cpp`; the profilers (`START_PROFILER`); `utils/vector_utils.hpp` printing;
  the text printed by `printCallbacks` of PROXQP and `printQPCallbacks` of CSQP (csqp.cpp:1437-1453) — only their absence of effect on the solver state is assumed.
  `CallbackVerbose` itself is modelled, with the text of a number as a parameter.
* Memory allocation and lifetime (`boost::shared_ptr`), `allocateData`: every vector has its correct size; the initial contents are the
  zeros the code writes. All properties but C106 and C107 are about one problem whose models are not replaced after construction (`is_updated()` false, so that
  `resizeData` is not called); C106 and C107 are about the sizes alone; OpenMP loops are executed in order there.
* Rounding: over `K` arithmetic is exact. Theorems over `F` hold with rounding, but over `K` they say nothing about it.
* `SolverKKT`: the `catch` branch of its solve loop (nothing inside can throw: LU never throws) is not modelled.
* PROXQP: ProxSuite is an arbitrary function returning primal/dual vectors, `none` = it throws. The C++ index variables of type
  `double` are naturals; `nx = ndx` (otherwise Eigen's dimension checks fail); writes outside the matrices are ignored.
* `int`/`size_t` overflow, except C42 (wrap-around of the constraint count). `max_qp_iters_ + 1` can overflow for
  `max_qp_iters_ = SIZE_MAX`; `rho_update_interval_ = 0` is a division by zero (UB); `set_max_qp_iters(negative)` and
  `set_adaptive_rho_tolerance` convert silently. These are excluded by the types or the hypotheses of the theorems concerned.
* Unqualified `abs` in `apply_rho_update` is read as the floating-point overload. If it resolved to `::abs(int)`, residuals would be truncated.
* The exact model represents `−inf` starting values of maxima by −1 (all quantities maximised are ≥ 0).

## 4. Trusted base

* Lean 4.33.0's kernel. Every theorem depends at most on `propext`, `Classical.choice`, `Quot.sound`
  (`#print axioms`; vcheck reports it). `decide +kernel` is used for witnesses over ℚ; no compiled code is trusted.
* The reading of the C++ text recorded in the comments of `Model/*`.
* Crocoddyl (external, assumed; C106): `ShootingProblem::updateModel`, `updateNode`, `circularAppend` keep the horizon, `nx` and `ndx`, make new data of the
  new model's sizes and raise a flag that `is_updated()` returns and clears; the constructor of `SolverAbstract` creates `xs_`, `us_`, `fs_`, its
  `resizeData` resizes `us_`; `setCandidate`, `calc`, `diff`, `integrate` require the sizes of their arguments.
* Crocoddyl (external, assumed): the constructor of `SolverAbstract` sets `steplength_ = 1`, `preg_ = dreg_ = 0`, `cost_ = 0`,
  `th_acceptstep_ = 0.1`, `th_stop_ = 1e-9`, `fs_` zeros, `is_feasible_ = was_feasible_ = false`; `setCandidate` copies, uses
  zero trajectories for empty arguments and throws on a wrong size; `computeDynamicFeasibility` fills `fs_` from the *stored* `xnext`;
  `problem->calc`/`calcDiff` call the model's functions node by node, sum the stored costs; `calcDiff` does not recompute `calc`;
  `raiseIfNaN(v)` = nan or inf or ≥ 1e30; `T ≥ 1`.
* Eigen: `LLT` succeeds exactly on positive definite matrices and solves exactly (exact theorems only); `lu().solve` solves nonsingular systems.
* boost::circular_buffer: `push_back` drops the oldest element when full, `resize`/`rresize` as documented (`Base/Loop.CBuf`).
* HPIPM: an arbitrary function of the QP and the number of the call. Where it is assumed exact (`OcpExact`, `HDenseExact` in `Spec/Hpipm`): the masks
  are on by default, `lam_lg`, `lam_ug` are nonnegative, `pi` has HPIPM's sign (`A x + B u + b - x⁺`, `b - A v`).
* SciPy: `cho_factor` as `LLT`; `spsolve` as `SpSolve`, an arbitrary function that never raises (`SpExact`, where assumed: it solves the systems with a
  nonsingular matrix). In exact arithmetic a quotient `0/0` (nan in Python) is 0; it only occurs in the estimate of the next penalty.
* The OpenMP semantics of section 1.

## 5. What the proofs found about the code

Each is a theorem (often with a ℚ witness), unless marked (text).

* `reg_min`/`reg_max` with `preg = 0`, `reg_min = 0`: the retry loop of every solver never ends (C09).
* After `set_filter_size` with a smaller size the filter reads the oldest entries, not the newest; it accepts NaN trials (C11, C14).
* SQP can certify with data of a different trajectory (C17); DDP/FDDP test convergence with multipliers lagging one forward pass (C55, C59).
* FDDP's trial gap norm measures the wrong quantity (C23); with its default filter FDDP can therefore refuse every step on a strictly
  convex LQ problem that SQP and DDP solve (C61).
* CSQP's default warm start (`equality_qp_initial_guess`) does not use `σ`: a convex problem whose costs are not strictly convex in the
  controls makes the first `computeDirection` throw without regularization, although every ADMM iteration would succeed (C66).
- With the default warm start CSQP does not recognise an exact solution with an active constraint although it holds the exact
  multipliers: the unconstrained step it starts from enters through σ, and `solve` can leave the solution and violate the bound (C67).
* CSQP shadows `steplength_`, so `get_steplength` is constant and the regularization ignores the line search (C34); its certificate
  lacks complementarity (C03); with `remove_reg` an exception of the backward pass escapes `solve` (C43); `th_stepdec ≥ 1` makes it give up (C56).
* The QP stop test ignores the proximal weight σ (C28); `get_qp_iters` is off by one (C32); `set_rho_sparse` has no effect (C31);
  crossed bounds leave a penalty uninitialised (C30).
* SolverKKT's residual has multipliers of the wrong sign and ignores gaps (C06).
* `SolverKKT::solve` never resets `was_feasible_`: with `is_feasible = true` the same call can return `false` on a new object and `true` on one that has solved before (C93).
* `SolverFDDP::expectedImprovement` evaluates its gap correction `dv` on the shortened trial (so `dv` is already proportional to the step) and multiplies it by the step length again: with open gaps the predicted decrease is wrong in first order, and there are problems where every small step decreases cost and gap and every small step is refused (C96).
* PROXQP returns multipliers newer than the checked ones and uses 50× the tolerance (C05); the constraint matrix has wrong columns
  when `nu` varies (C40).
* An exception inside a parallel region terminates the program, and whether it does depends on the schedule (C50).
* The verbose callback casts DDP/FDDP to SQP (UB), leaves the stream's format changed, throws on an unknown type only
  every tenth iteration, and its header columns are shifted (C39).
* Setters accept NaN, empty `alphas` is UB (C35, C36); the constraint count wraps around (C42).
* (text) `filter_size = 0` accepts any step; tolerances shadowed when accessed through a base pointer.
* CSQPProxQP has the same filter defects as CSQP (wrong entries after a smaller `set_filter_size`, NaN accepted; C11, C14). Started at an exact
  solution with other multipliers than the exact ones it cannot stop in the first iteration, so it returns `false` with `maxiter = 1` and when
  the regularization is at its maximum (C67).
* CSQP remembers three things between solves: `y` (unless `reset_y`), the last step (unless `equality_qp_initial_guess`) and the penalty of
  a row whose bounds are crossed; with `max_qp_iters = 0` the verdict is computed from the direction of the *previous* solve (C55).
  CSQPProxQP's first convergence test uses the multipliers of the previous solve, so a repeated call can return another value (C55).
* Python `SQP`: with the filter it can repeat the same rejected iteration until `maxiter` (no regularization to change the direction); the merit
  line search ignores its tenth trial; with callbacks it raises `TypeError` when the guess is already optimal (C70). (text) `solve` overwrites
  `init_xs[0]` in the caller's list; `LinAlgError` of the factorisation escapes. It accepts ties that the C++ solver rejects (C69).
* Feedback gains are only valid after a true return: at `maxiter` they belong to the previous iterate. CSQP's gains contain the ADMM penalty of
  inactive constraints, so they are not the LQR gains of the model (C72).
* Python `CSQP`: its filter ignores the constraints (the list is written and never read), so it accepts steps that only increase their
  violation and can stall for ever at an infeasible point (C75); it does not test the state equation of node 0 (C73); the merit search never
  takes its tenth trial; a failed Cholesky factorisation goes unnoticed (C76); automatic weights lag one iteration behind (C75); like C++ it
  remembers `y` between calls (C77). (text) `StagewiseADMM.solve` calls `computeDirection(KKT=False)`, an argument that method does not
  have: it always raises `TypeError`. Crossed bounds get the penalty `rho` in Python and keep their old penalty in C++.
* Python `SQP_CPP`: `solve` with the filter always returns True (C78). When the convergence test succeeds it still makes a line search
  along the *old* direction, so on linear-quadratic problems it returns the mirror image of a feasible guess through the optimum, with True
  and residual zero, or a trajectory that violates the dynamics (C80); in merit mode it returns False at the exact optimum (C81). The
  direction of an earlier `solve` can be used (C79). The gap norm of the trial is divided by `T`, that of the candidate is not (C82).
  `tests/python/test_lqr_problem.py` compares it with `SolverSQP` from an infeasible guess, where the extra trials can all be rejected.
* Dense Python back ends: `StagewiseQPKKT` marks an answer converged although its gradient is not small (its dual test sees only changes of
  constraint values), and keeps its iterate between calls, so the same QP gives different answers (C86). (text) `QPSolvers.solve` calls
  `computeDirectionFullQP(KKT=False)`, an argument that method does not have: it always raises `TypeError`. The control dimension is read
  from the first model: other dimensions at other nodes break the assembly. `StagewiseQPKKT` sizes its first iterate with `nx`, so it works only for
  `nx = ndx`, and never sets `found_qp_sol`. `max_qp_iters = 0` raises `UnboundLocalError` (C85, C86). The first iterate of CustomOSQP (`z = 0`) need not be within the bounds.
* HPIPM back ends of the Python CSQP: `HPIPM_OCP` reads no multipliers unless `DEBUG` is set, so `solve` can return true only where the
  cost gradient itself vanishes, and on constrained problems it runs to `maxiter` at the optimum; `HPIPM_DENSE` keeps only the multipliers of the upper bounds
  (the source comments "This is probably wrong"), so with an active lower bound it never returns true (C92). (text) with `DEBUG` and `BENCHMARK` (the default) the code reads
  `self.VERBOSE_DEBUG` (dense) and `self.DEBUG_VERBOSE` (ocp), which are never set: `AttributeError`.
* `CallbackLogger`: on `SolverCSQP` the logged merit of each row is that of the row before, since `solve` runs the callbacks before it sets `merit_`; the
  first row shows the merit left from an earlier solve. The logged step length of CSQP is always the constant of the constructor. On `SolverDDP` and `SolverFDDP`, which announce themselves
  as "SQP", the logger raises `AttributeError` (no `merit`) after appending to five of its lists (C99).
* Settings (text): `SolverFDDP`, `SolverSQP`, `SolverCSQP` and `SolverPROXQP` declare their own `termination_tol_` and `KKT_`, and neither `set_termination_tolerance` nor `get_KKT` is virtual: through a
  `SolverDDP&` in C++ a tolerance is stored and read back, but the solver does not use it. `set_adaptive_rho_tolerance(std::size_t)` truncates a fraction; `set_max_qp_iters(int)` turns −1 into 2⁶⁴ − 1 iterations. No setting besides those of C35 is
  checked: a negative `mu_dynamic`, `sigma` or tolerance is accepted (C100).
* `termination_tolerance` mixes units: the residual of SQP is the maximum of stationarity (unit of the cost) and gaps (unit of the state), so no rescaling of the tolerance makes the stopping test invariant under a change of the unit of the cost, although the iterations themselves are (C101). `reg_min`, `reg_max`, `mu_dynamic` and the threshold 1e30 of `raiseIfNaN` carry the unit of the cost as well.
* Splitting a solve: two calls with one iteration each and one call with two iterations can return different values after a failed line search, because only the first iteration of a call runs `calc` (C102, same cause as C17). With a filter larger than 1 a new call also forgets the entries of the old one (C12).
* Splitting a solve: for `SolverDDP` and `SolverFDDP` it is harmless even after a failed line search (C103), because these two set `recalcDiff = false` then and keep derivatives, gaps and cost of the candidate; `SolverSQP` recomputes the derivatives with outdated costs and next states (C102, C17).
* Splitting a solve of `SolverCSQP`: adapted penalties are lost, because `solve` calls `reset_rho_vec()` in its first iteration unless `reset_rho` resets them for every QP anyway; everything else is handed over (C104, csqp.cpp:248-250).
* Replaced models: `SolverCSQP` and `SolverPROXQP` inherit `SolverDDP::resizeData`, which knows none of their own arrays. After `updateModel`/`circularAppend` with more constraints at a node, the first `apply_rho_update` writes past the end of `rho_vec_[t]` and `inv_rho_vec_[t]` (C106, csqp.cpp:551-565); with another number of controls or constraints `du_`, `dutilde_`, `z_`, `y_`, `tmp_*` and the matrices of PROXQP are stale too (read from the text, not modelled). The check that `nh = 0` is made only in the constructor. `SolverDDP`, `SolverFDDP` and `SolverSQP` are safe (C106); the `du_` and `tmp_vec_u_` of SQP and `Quu_llt_` are stale after `resizeData` but always assigned before they are read.
* Two solvers on one problem: `is_updated()` clears the flag, so only the first solver that solves after a replacement resizes (C106).
* Replaced models, `SolverCSQP` (C107): `backwardPass_without_rho_update` and its multithreaded variant execute `k_[t] = Qu_[t]; Quu_llt_[t].solveInPlace(k_[t])` also for nodes without controls, where nothing recomputes `Quu_llt_[t]`; after a node lost its controls this is a triangular solve of the old size on an empty vector (an assertion in debug builds, an out-of-range access in release builds). With the default setting (initial guess enabled) a node that changes to another non-zero number of controls gets its `du_` from `forwardPass_without_constraints` first; with the guess disabled the stale `du_` is added to `Lu`.
* `backwardPass_mt` uses `FuTVxx_p_[0]` as scratch for every node: harmless, since every user assigns it before reading (C107).
