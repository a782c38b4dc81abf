{"id": "C01", "title": "Linear QP equalities encode exactly the plant dynamics", "statement": "For a linear MPC whose model is (A,B,C[,Bd,Dd]), a decision vector satisfies the equality rows of the QP handed to OSQP if and only if it is the trajectory with x_0 equal to the measured state, the held input before step 0 equal to the last command, u_k = u_{k-1} + du_k and x_{k+1} = A x_k + B u_k + Bd d_k for every step k of the prediction horizon.", "quantifier": "every state/input/disturbance/output dimension, every prediction horizon, every model, initial state, last command, disturbance sequence and decision vector", "why_tests_cant": "A test fixes dimensions and one model; an index slip in the stacked Kronecker assembly shows only at other sizes or trajectories.", "anchors": ["include/mpc/LMPC/ProblemBuilder.hpp: ProblemBuilder::get, buildTimeInvariantTems, setStateModel, setExogenousInput", "docs/source/manual/manual.rst"]}
{"id": "C02", "title": "Linear QP objective is the documented weighted tracking cost", "statement": "With zero output feed-through of disturbances or not, the quadratic objective of the QP, evaluated on any decision vector, equals (up to a constant that does not depend on the decision vector) one half of the sum over the horizon of the weighted squared output-reference, input-reference errors and weighted squared input increments.", "quantifier": "every dimension, horizon, model, weight matrix, reference, disturbance and decision vector", "why_tests_cant": "The identity must hold on the whole decision space and for every size; tests compare one optimal command.", "anchors": ["include/mpc/LMPC/ProblemBuilder.hpp: get, buildTimeInvariantTems, setObjective", "include/mpc/LMPC.hpp: setObjectiveWeights, setReferences"]}
{"id": "C03", "title": "Each input-increment reference is used at the step it is given for", "statement": "If setReferences is given a matrix of input-increment references, the objective penalises du_k against column k of that matrix, for every k of the prediction horizon.", "quantifier": "every horizon, every reference matrix, every step k", "why_tests_cant": "Existing tests use constant or zero increment references, for which a shifted column is invisible.", "anchors": ["include/mpc/LMPC/ProblemBuilder.hpp: get (deltaUref use)", "include/mpc/LMPC.hpp: setReferences"]}
{"id": "C04", "title": "State bounds hold at the steps they were set for", "statement": "A decision vector satisfies the state rows of the QP inequality constraints if and only if, at every step k=1..ph, the predicted state x_k lies between the min and max columns configured for that step (step index k-1 of the API), x_0 being bounded by the entry configured for index 0.", "quantifier": "every dimension, horizon, bound matrix (including infinite entries) and decision vector", "why_tests_cant": "Step-dependent bounds over arbitrary horizons; tests use constant bounds.", "anchors": ["include/mpc/LMPC/ProblemBuilder.hpp: setStateBounds, buildTimeInvariantTems", "include/mpc/LMPC.hpp: setStateBounds"]}
{"id": "C05", "title": "Input bounds hold at the steps they were set for", "statement": "A bound configured with setInputBounds for step k constrains exactly the command u_k of the predicted input sequence, for every k of the control horizon, and never constrains the already applied last command.", "quantifier": "every dimension, horizon, step-dependent bound matrix, last command and decision vector", "why_tests_cant": "Only a non-constant bound matrix or a last command outside the bounds reveals a shift by one step.", "anchors": ["include/mpc/LMPC/ProblemBuilder.hpp: setInputBounds, buildTimeInvariantTems (eMinX/eMaxX loop)", "include/mpc/LMPC.hpp: setInputBounds"]}
{"id": "C06", "title": "Output bounds hold for the predicted output including the disturbance", "statement": "A decision vector satisfies the output rows of the QP inequality constraints if and only if, at every step, C x_k plus the disturbance feed-through lies within the configured output bounds of that step.", "quantifier": "every dimension, horizon, output map, feed-through, disturbance sequence, bounds and decision vector", "why_tests_cant": "The bound offset is recomputed from the disturbance at every call; only a universally quantified statement covers all.", "anchors": ["include/mpc/LMPC/ProblemBuilder.hpp: get (ineq_offset), setOutputBounds, buildTimeInvariantTems", "include/mpc/LMPC.hpp: setOutputBounds, setExogenousInputs"]}
{"id": "C07", "title": "Scalar constraint relates state and input of the same step", "statement": "After setScalarConstraint(min,max,X,U) the QP requires min_k <= X'x_k + U'u_k <= max_k at every step k of the prediction horizon with u_k the input applied at step k, as documented.", "quantifier": "every dimension, horizon, multiplier vectors, bounds and decision vector", "why_tests_cant": "Pairing x_k with u_{k-1} instead of u_k is indistinguishable when U is zero or inputs are constant.", "anchors": ["include/mpc/LMPC/ProblemBuilder.hpp: setScalarConstraint, buildTimeInvariantTems", "include/mpc/LMPC.hpp: setScalarConstraint"]}
{"id": "C08", "title": "The input is frozen from the control horizon on", "statement": "Every decision vector feasible for the QP has u_k = u_{ch-1} for every step k >= ch, and no constraint of this kind acts on steps k < ch.", "quantifier": "every control horizon <= prediction horizon, every dimension and decision vector", "why_tests_cant": "An off-by-one in the frozen range yields one extra free move that a closed-loop test cannot notice.", "anchors": ["include/mpc/LMPC/ProblemBuilder.hpp: buildTimeInvariantTems (lineqDU/uineqDU)"]}
{"id": "C09", "title": "Whole-horizon input bounds are accepted for every valid pair of horizons", "statement": "setInputBounds with nu x ch matrices succeeds (no out-of-range access, no size mismatch) for every control horizon not larger than the prediction horizon, and bounds every step of the prediction horizon, the steps after ch by the last column.", "quantifier": "every pair ch <= ph, every dimension and matrix", "why_tests_cant": "All tests in the repository use ch = ph or only small fixed pairs.", "anchors": ["include/mpc/LMPC/ProblemBuilder.hpp: setInputBounds", "include/mpc/LMPC.hpp: setInputBounds"]}
{"id": "C10", "title": "Setters of the linear controller form an independent last-write-wins register file", "statement": "After any history of model, weight, bound, scalar-constraint and disturbance-model setter calls, the controller configuration equals, per item and per prediction step, the value of the last accepted call covering it, or the default if none; a setter never disturbs the configuration of another group.", "quantifier": "every finite sequence of setter calls in any order, every dimension and horizon", "why_tests_cant": "There are unboundedly many call orders; tests exercise a handful.", "anchors": ["include/mpc/LMPC/ProblemBuilder.hpp: all setters", "include/mpc/LMPC.hpp: all setters"]}
{"id": "C11", "title": "The QP matrices always reflect the latest configuration", "statement": "After any history of setter calls, the Hessian, constraint matrix and bounds handed to the solver at the next optimize call are those determined by the current configuration alone; no stale term from an earlier configuration survives.", "quantifier": "every finite sequence of setter calls, in any order", "why_tests_cant": "The matrices are cached and rebuilt by the setters: staleness depends on the order of calls.", "anchors": ["include/mpc/LMPC/ProblemBuilder.hpp: buildTimeInvariantTems and its call sites, get", "include/mpc/LMPC/LOptimizer.hpp: run"]}
{"id": "C12", "title": "An unconfigured linear controller imposes no state, input, output or scalar limits", "statement": "A freshly constructed linear controller places no finite bound on states, inputs, outputs or the scalar constraint at any step; the only active restriction besides the dynamics is the control-horizon one.", "quantifier": "every dimension, every pair of horizons, every decision vector", "why_tests_cant": "A default finite bound at a single step or size would be found only by enumerating all of them.", "anchors": ["include/mpc/LMPC/ProblemBuilder.hpp: onInit"]}
{"id": "C13", "title": "The QP Hessian is symmetric and positive semidefinite for non-negative weights", "statement": "For every set of non-negative weights (in any per-step arrangement) the Hessian of the QP is symmetric and positive semidefinite, so OSQP's convexity requirement is met; storing only its upper triangle loses nothing.", "quantifier": "every dimension, horizon, model and non-negative weights", "why_tests_cant": "Convexity is a statement about all directions of the decision space.", "anchors": ["include/mpc/LMPC/ProblemBuilder.hpp: buildTimeInvariantTems, getSparse"]}
{"id": "C14", "title": "The sparse conversion handed to OSQP is lossless and well formed", "statement": "The compressed-column copy of a matrix handed to OSQP has monotone column pointers starting at 0 and ending at the number of non-zeros, row indices in range, strictly increasing inside each column, and decodes back to exactly the original matrix (its upper triangle for the Hessian).", "quantifier": "every matrix of every size", "why_tests_cant": "Round trip over all matrices.", "anchors": ["include/mpc/LMPC/LOptimizer.hpp: createOsqpSparseMatrix", "include/mpc/LMPC/ProblemBuilder.hpp: getSparse"]}
{"id": "C15", "title": "A slice setter changes exactly the steps in [start,end)", "statement": "When a slice overload (bounds, weights, references, disturbances) accepts a slice with 0 <= start, exactly the steps start..end-1 take the new value and every other step keeps its previous one; when it returns false the configuration is unchanged; the unset slice {-1,-1} covers the entire horizon.", "quantifier": "every slice, every previous configuration, every horizon", "why_tests_cant": "The set of slices and previous histories is unbounded.", "anchors": ["include/mpc/LMPC.hpp: slice overloads", "include/mpc/IMPC.hpp: isPredictionHorizonSliceValid, isControlHorizonSliceValid, isSliceUnset", "include/mpc/Types.hpp: HorizonSlice"]}
{"id": "C16", "title": "Every non-empty slice inside the horizon is accepted and every other one is rejected", "statement": "A slice {start,end} is accepted if and only if it is {-1,-1} or satisfies 0 <= start < end <= horizon.", "quantifier": "every pair of 32-bit integers and every horizon", "why_tests_cant": "Acceptance is a predicate over all integer pairs.", "anchors": ["include/mpc/IMPC.hpp: isPredictionHorizonSliceValid, isControlHorizonSliceValid"]}
{"id": "C17", "title": "Disturbance sequences can be set on any slice of the prediction horizon", "statement": "setExogenousInputs with a slice accepts the same slices as the other prediction-horizon setters whatever the control horizon is.", "quantifier": "every pair of horizons and every slice", "why_tests_cant": "A validation against the wrong horizon is visible only when ch < ph and the slice exceeds ch.", "anchors": ["include/mpc/LMPC.hpp: setExogenousInputs(vector, slice)"]}
{"id": "C18", "title": "The reported optimal sequence is the solver's solution and obeys the plant model", "statement": "After a solved optimize call, the returned state/input sequences are read from the solver's primal vector so that, whenever that vector satisfies the QP equalities, row k+1 of the states is A x_k + B u_k + Bd d_k, row 0 is the measured state, the last input row repeats the previous one, the outputs are C x_k plus feed-through, and the returned command is row 0 of the input sequence.", "quantifier": "every solver answer, dimension, horizon, model and disturbance", "why_tests_cant": "Index arithmetic of the extraction must be right at every size and step.", "anchors": ["include/mpc/LMPC/LOptimizer.hpp: run", "include/mpc/IMPC.hpp: getOptimalSequence, optimize"]}
{"id": "C19", "title": "When the linear solver fails, the controller keeps the last successful command", "statement": "After any history of optimize calls, when the solver returns no solution the command returned equals the command of the most recent call that returned a solution (zero if none), the result is flagged infeasible with status ERROR and infinite cost, and the optimal sequence is all zero.", "quantifier": "every finite history of solver answers", "why_tests_cant": "The claim is about unbounded histories of failures and successes.", "anchors": ["include/mpc/LMPC/LOptimizer.hpp: run (failure branch)", "include/mpc/IMPC.hpp: optimize, getLastResult"]}
{"id": "C20", "title": "A linear SUCCESS status is only reported for a feasible solution", "statement": "If optimize reports status SUCCESS, the result is flagged feasible, for every solver return code.", "quantifier": "every solver status code", "why_tests_cant": "Rare solver codes (inaccurate infeasibility certificates) hardly ever occur in tests.", "anchors": ["include/mpc/LMPC/LOptimizer.hpp: run, convertToResultStatus", "include/mpc/Types.hpp: ResultStatus"]}
{"id": "C21", "title": "Warm start hands the solver the previous primal and dual solution", "statement": "With warm start enabled, the solver is warm-started at each call with exactly the primal and dual vectors of the most recent solution (of sizes number of variables and number of constraints) or those last set by the user; without a previous solution or with warm start disabled, no warm start takes place.", "quantifier": "every history of optimize calls, solver answers and warm-start setter calls", "why_tests_cant": "History dependent.", "anchors": ["include/mpc/LMPC/LOptimizer.hpp: run, setWarmStart getters/setters", "include/mpc/LMPC.hpp: getWarmStartPrimal/Dual, setWarmStart"]}
{"id": "C22", "title": "Consistent bounds always pass the solver's validation, inconsistent ones are not silently ignored", "statement": "If every configured lower bound is <= its upper bound, the bounds given to OSQP satisfy l <= u row by row for every disturbance, and conversely; when OSQP rejects the problem (l > u), optimize reports an error rather than using an unset workspace.", "quantifier": "every configuration and disturbance", "why_tests_cant": "Universal over bounds and disturbances.", "anchors": ["include/mpc/LMPC/ProblemBuilder.hpp: get", "include/mpc/LMPC/LOptimizer.hpp: run (osqp_setup)"]}
{"id": "C23", "title": "Problem construction has no memory", "statement": "Asking for the QP with given measured state, last command, disturbances and references gives a result that depends only on those arguments and the configuration: no earlier optimize call can change it.", "quantifier": "every history of earlier calls and arguments", "why_tests_cant": "The builder overwrites persistent vectors; stale entries depend on the history.", "anchors": ["include/mpc/LMPC/ProblemBuilder.hpp: get"]}
{"id": "C24", "title": "Solver memory of the linear controller is freed exactly once", "statement": "Over any number of optimize calls every OSQP allocation made by a call is released exactly once before the next one, and destroying the optimizer releases nothing twice.", "quantifier": "every history of optimize calls followed by destruction", "why_tests_cant": "Allocation histories are unbounded and double frees may pass unnoticed.", "anchors": ["include/mpc/LMPC/LOptimizer.hpp: ~LOptimizer, run, clearData, initData, createOsqpSparseMatrix"]}
{"id": "C25", "title": "Profiler counters, total, average, minimum and maximum are exact", "statement": "After any sequence of recorded solutions the number of solutions, total time, average time, minimum and maximum equal those of the recorded durations.", "quantifier": "every finite sequence of (duration, status)", "why_tests_cant": "Running formulas must be right for every sequence.", "anchors": ["include/mpc/Profiler.hpp: solutionEnd, addSolutionTime"]}
{"id": "C26", "title": "Profiler standard deviation is the sample standard deviation", "statement": "After any sequence of n >= 2 recorded solutions the reported standard deviation equals the sample standard deviation (n-1 normalisation) of the durations.", "quantifier": "every finite sequence of durations", "why_tests_cant": "An integer division error inside a running update shows only for n >= 3.", "anchors": ["include/mpc/Profiler.hpp: addSolutionTime"]}
{"id": "C27", "title": "Profiler status histogram is exact and percentages add to one hundred", "statement": "The count shown for every status equals the number of recorded solutions with that status, counts add up to the number of solutions and the printed percentages to one hundred.", "quantifier": "every finite sequence of statuses", "why_tests_cant": "Universal over sequences.", "anchors": ["include/mpc/Profiler.hpp: solutionEnd, operator<<"]}
{"id": "C28", "title": "resetStats makes the statistics as new", "statement": "After resetStats the statistics evolve exactly as those of a new controller, whatever was recorded before.", "quantifier": "every two finite sequences (before and after the reset)", "why_tests_cant": "A single field left uncleared shows only after particular histories.", "anchors": ["include/mpc/Profiler.hpp: reset, clear", "include/mpc/IMPC.hpp: resetStats"]}
{"id": "C29", "title": "Log filtering emits exactly the messages at or above the configured level", "statement": "For any history of log calls and level/prefix changes, what is written to the stream is exactly the concatenation of the pieces whose message type is at or above the level in force when each piece is streamed, each log call of visible type being preceded by the [MPC++ prefix] tag; with level NONE nothing is written.", "quantifier": "every finite history of logger operations", "why_tests_cant": "History dependent state machine.", "anchors": ["include/mpc/Logger.hpp: log, operator<<, setLevel, setPrefix, reset"]}
{"id": "C30", "title": "Logger reset restores prefix and level only", "statement": "reset restores the empty prefix and NORMAL level, keeps stream and already written text, and is idempotent.", "quantifier": "every logger state", "why_tests_cant": "Universal over states.", "anchors": ["include/mpc/Logger.hpp: reset"]}
{"id": "C31", "title": "Dimension arithmetic is integer arithmetic and is static exactly when both operands are", "statement": "For all sizes, sum, difference and product of two sizes (and of a size and an integer on either side) have the arithmetic value of the C++ expression written, and the result is static iff both operands are.", "quantifier": "every pair of integers / sizes", "why_tests_cant": "Universal over integers.", "anchors": ["include/mpc/Dim.hpp: Size operators", "include/mpc/Types.hpp: make_dimension"]}
{"id": "C32", "title": "Multi-step Runge-Kutta integration composes", "statement": "Integrating with n sub-steps equals n single-step integrations, each started at the time where the previous one ended; zero sub-steps return the initial state.", "quantifier": "every vector field, state, input, step and number of sub-steps", "why_tests_cant": "Universal over vector fields and counts.", "anchors": ["include/mpc/Integrator.hpp: RK4::run"]}
{"id": "C33", "title": "Runge-Kutta step is exact on cubic-in-time and matches the degree-4 Taylor step on linear systems", "statement": "One step integrates a state-independent cubic polynomial right-hand side exactly, and on x' = A x gives (I + hA + (hA)^2/2 + (hA)^3/6 + (hA)^4/24) x.", "quantifier": "every polynomial, matrix, state and step", "why_tests_cant": "A wrong coefficient may stay within a numerical tolerance.", "anchors": ["include/mpc/Integrator.hpp: RK4::run"]}
{"id": "C34", "title": "Discretization is the exact zero-order-hold sampling", "statement": "The pair returned by discretization maps x(0) and a constant input to the value at time Ts of the solution of x' = A x + B u (and of x' = A x + B u + Be d in the disturbance variant); discretizing at Ts1+Ts2 is the composition of both.", "quantifier": "every system, sampling time, state and input", "why_tests_cant": "A statement about all real matrices and a differential equation.", "anchors": ["include/mpc/Utils.hpp: discretization"]}
{"id": "C35", "title": "Move blocking expands the nonlinear decision vector as documented", "statement": "The input used at step k of the prediction horizon is the (scaled) decision input of step min(k, ch-1), the row after the horizon repeats the last one, for every decision vector; the first state row is the measured state and the following ones the (scaled) decision states.", "quantifier": "every pair of horizons ch <= ph, dimension, scaling and decision vector", "why_tests_cant": "Index maps over all sizes; scaling is 1 in the tests.", "anchors": ["include/mpc/NLMPC/Mapping.hpp: unwrapVector, computeMapping"]}
{"id": "C36", "title": "Compressing an expanded input sequence gives back the decision inputs", "statement": "For every non-zero input scaling and every ch <= ph, compressing after expanding is the identity on decision inputs, and expanding after compressing is the identity on sequences constant from ch-1 on.", "quantifier": "every dimension, horizon and scaling", "why_tests_cant": "Universal over sizes.", "anchors": ["include/mpc/NLMPC/Mapping.hpp: computeMapping"]}
{"id": "C37", "title": "Nonlinear equality constraints vanish exactly on trajectories of the model", "statement": "The state-equation residual is zero if and only if, at every step, x_{k+1} = f(x_k,u_k) (discrete model) or x_{k+1} = x_k + Ts/2 (f(x_k,u_k) + f(x_{k+1},u_k)) (continuous model), whatever the state scaling.", "quantifier": "every vector field, dimension, horizon, non-zero scaling and trajectory", "why_tests_cant": "Universal over vector fields and trajectories.", "anchors": ["include/mpc/NLMPC/Constraints.hpp: evaluateStateModelEq, getStateEqConstraints"]}
{"id": "C38", "title": "The gradient of the dynamics constraints given to the solver is exact for affine models", "statement": "For every affine model, discrete or continuous, the Jacobian of the state-equation constraints handed to the solver equals the true derivative of the residual with respect to the decision vector.", "quantifier": "every affine model, dimension, pair of horizons, scaling and point", "why_tests_cant": "A misplaced block shows only at certain sizes and horizons.", "anchors": ["include/mpc/NLMPC/Constraints.hpp: getStateEqConstraints, computeStateEqJacobian, evaluateStateModelEq, glueJacobian"]}
{"id": "C39", "title": "The objective gradient given to the solver is exact for affine objectives", "statement": "For every affine objective the gradient handed to the solver equals the derivative of the objective as a function of the decision vector.", "quantifier": "every affine objective, dimension, horizons, scaling and point", "why_tests_cant": "Misplaced or unscaled entries are hidden by solver robustness.", "anchors": ["include/mpc/NLMPC/Objective.hpp: evaluate, computeJacobian"]}
{"id": "C40", "title": "The gradient of user inequality constraints is exact for affine constraints", "statement": "For every affine user inequality constraint the Jacobian handed to the solver equals its derivative with respect to the decision vector.", "quantifier": "every affine constraint, dimension, horizons and point", "why_tests_cant": "A missed row contribution only slows or biases the solver.", "anchors": ["include/mpc/NLMPC/Constraints.hpp: evaluateIneq, computeIneqJacobian"]}
{"id": "C41", "title": "The gradient of user equality constraints is exact for affine constraints", "statement": "For every affine user equality constraint the Jacobian handed to the solver equals its derivative with respect to the decision vector.", "quantifier": "every affine constraint, dimension, horizons and point", "why_tests_cant": "As above.", "anchors": ["include/mpc/NLMPC/Constraints.hpp: evaluateEq, computeEqJacobian"]}
{"id": "C42", "title": "Predicted outputs are the user's output map at every step", "statement": "The output sequence has in row k the user's output function of row k of states and inputs with step index k, and is zero when no output function was set; the result does not depend on earlier evaluations.", "quantifier": "every output function that writes its whole argument, trajectory, dimension and horizon", "why_tests_cant": "Universal over functions.", "anchors": ["include/mpc/NLMPC/Model.hpp: getOutput"]}
{"id": "C43", "title": "A nonlinear result is flagged feasible exactly when the user's constraints hold within tolerance", "statement": "The feasibility flag is true if and only if every user inequality value is at most its tolerance and every user equality value is at most its tolerance in absolute value (a non-number counts as violated).", "quantifier": "every user constraint functions, tolerances and decision vector", "why_tests_cant": "Universal over functions and values including NaN.", "anchors": ["include/mpc/NLMPC/Constraints.hpp: isFeasible", "include/mpc/NLMPC/NLOptimizer.hpp: run"]}
{"id": "C44", "title": "Box bounds of the nonlinear controller act on exactly the addressed decision variables", "statement": "Setting state or input bounds for a slice changes the solver box of exactly the decision variables of those steps; all other variables, in particular the slack, keep their bounds; bounds accumulate last-write-wins over any history.", "quantifier": "every history of bound setters, dimension and horizons", "why_tests_cant": "Index layout over all sizes and histories.", "anchors": ["include/mpc/NLMPC/NLOptimizer.hpp: setStateBounds, setInputBounds", "include/mpc/NLMPC.hpp: setStateBounds, setInputBounds"]}
{"id": "C45", "title": "Soft constraints can be switched on and off", "statement": "After setOptimizerParameters with hard_constraints = true the slack variable is fixed at zero; with hard_constraints = false the slack is free to be positive, whatever parameters were set before.", "quantifier": "every finite history of parameter calls", "why_tests_cant": "History dependent.", "anchors": ["include/mpc/NLMPC/NLOptimizer.hpp: setParameters, onInit"]}
{"id": "C46", "title": "The latest optimizer parameters are the ones in force", "statement": "After any sequence of setOptimizerParameters calls, the limits used by the solver (including the time limit) are those of the last call.", "quantifier": "every finite history of parameter calls", "why_tests_cant": "Stickiness depends on an earlier call.", "anchors": ["include/mpc/NLMPC/NLOptimizer.hpp: setParameters"]}
{"id": "C47", "title": "The initial guess of the nonlinear solver is as documented", "statement": "The first (or non-warm-started) call starts the solver from the measured state and last input at each step; a warm-started call starts from the previous solution shifted by one step with the last state and input repeated.", "quantifier": "every history, dimension, horizons and previous solution", "why_tests_cant": "Index shifting for all sizes and histories.", "anchors": ["include/mpc/NLMPC/NLOptimizer.hpp: run"]}
{"id": "C48", "title": "When the nonlinear solver fails, the controller keeps the last command", "statement": "After any history, when the solver throws, the returned command is that of the last successful call (zero if none), flagged infeasible with status ERROR; a later call behaves as if the failed one had not happened with respect to its starting point.", "quantifier": "every finite history of solver outcomes", "why_tests_cant": "Histories are unbounded.", "anchors": ["include/mpc/NLMPC/NLOptimizer.hpp: run"]}
{"id": "C49", "title": "Setting a model or constraint replaces the previous one and reports failure", "statement": "Calling a set*Function again replaces the previous function; the problem given to the solver holds one copy of each constraint group, and the setter returns true only if the solver accepted the constraint.", "quantifier": "every finite history of setter calls", "why_tests_cant": "History dependent.", "anchors": ["include/mpc/NLMPC.hpp: setStateSpaceFunction, setObjectiveFunction, setIneqConFunction, setEqConFunction", "include/mpc/NLMPC/NLOptimizer.hpp: bind*"]}
{"id": "C50", "title": "Unsupported setters always fail loudly and change nothing", "statement": "Calling a setter which the controller does not support throws and leaves the configuration unchanged, for every argument and at any point of a history.", "quantifier": "every history and argument", "why_tests_cant": "Universal over histories.", "anchors": ["include/mpc/LMPC.hpp: setDiscretizationSamplingTime, setInputScale, setStateScale", "include/mpc/NLMPC.hpp: setOutputBounds"]}
{"id": "C51", "title": "Numerical differentiation leaves the trajectory it perturbs unchanged", "statement": "After computing any gradient, the trajectory used for it is exactly the one before the computation, so the value and later gradients are unaffected.", "quantifier": "every function, trajectory, dimension", "why_tests_cant": "Must hold after each of unboundedly many perturbations.", "anchors": ["include/mpc/NLMPC/Objective.hpp: computeJacobian", "include/mpc/NLMPC/Constraints.hpp: computeIneqJacobian, computeEqJacobian, computeStateEqJacobian"]}
{"id": "C52", "title": "Using a component before initialisation is refused", "statement": "Every operation that needs dimensions terminates the program with an error instead of computing when the component was not initialised, and initialisation happens at most with valid positive horizons and non-negative dimensions.", "quantifier": "every operation and every dimension tuple", "why_tests_cant": "Universal over operations.", "anchors": ["include/mpc/IComponent.hpp: checkOrQuit", "include/mpc/IDimensionable.hpp: setDimension"]}
{"id": "C53", "title": "Nonlinear evaluations do not depend on what was evaluated before", "statement": "The value and gradient returned to the solver for a decision vector depend only on that vector, the measured state and the configuration, not on the earlier evaluations (for user functions which write their whole output).", "quantifier": "every sequence of earlier evaluations", "why_tests_cant": "Persistent buffers could leak between calls.", "anchors": ["include/mpc/NLMPC/Objective.hpp: evaluate", "include/mpc/NLMPC/Constraints.hpp: evaluateIneq, evaluateEq, evaluateStateModelEq, isFeasible"]}
{"id": "C54", "title": "Solver return codes map to one documented result status each", "statement": "Every return code of OSQP and NLopt gives the documented ResultStatus; success codes give SUCCESS, limits MAX_ITERATION, infeasibility INFEASIBLE, the other failures ERROR, and unsolved or a number which is no code UNKNOWN.", "quantifier": "every integer return code", "why_tests_cant": "Universal over codes.", "anchors": ["include/mpc/LMPC/LOptimizer.hpp: convertToResultStatus", "include/mpc/NLMPC/NLOptimizer.hpp: convertToResultStatus"]}
{"id": "C55", "title": "The output of step k contains the disturbance of step k", "statement": "As documented, the predicted output of step k that the objective tracks and the output limits bound is C x_k + Dd d_k, with d_k the disturbance configured for step k.", "quantifier": "every linear model, disturbance sequence, history of setter calls and decision vector", "why_tests_cant": "Universal over steps, sequences and decision vectors; tests with constant disturbances cannot see the index.", "anchors": ["include/mpc/LMPC/ProblemBuilder.hpp: get", "include/mpc/LMPC/LOptimizer.hpp: run"]}
{"id": "C56", "title": "The last result and optimal sequence of the linear controller persist until the next optimize", "statement": "getLastResult returns the result of the most recent optimize call (a zero command, not feasible, UNKNOWN before the first), and no setter changes it or the optimal sequence.", "quantifier": "every history of API calls of any length", "why_tests_cant": "Universal over histories.", "anchors": ["include/mpc/IMPC.hpp: getLastResult, getOptimalSequence, optimize", "include/mpc/LMPC/LOptimizer.hpp: run"]}
{"id": "C57", "title": "No well-sized history of calls on the linear controller reaches undefined behaviour", "statement": "For every valid dimensions and every history of public calls whose arguments have the documented sizes, no out-of-range access, size mismatch, null or dangling pointer use or double release happens.", "quantifier": "every history of API calls with well-sized arguments, every solver outcome", "why_tests_cant": "Undefined behaviour may go unnoticed in a run, and histories are unbounded.", "anchors": ["include/mpc/LMPC.hpp", "include/mpc/LMPC/LOptimizer.hpp: run, clearData", "include/mpc/LMPC/ProblemBuilder.hpp"]}
{"id": "C58", "title": "The nonlinear controller reports the solver's solution", "statement": "After a solved optimize, the command is the first input of the solver's vector, the state, output and input sequences are those of the vector (states starting at the measured state), the result persists until the next optimize and no setter changes it.", "quantifier": "every history of API calls and every solver answer", "why_tests_cant": "Universal over histories and solver vectors.", "anchors": ["include/mpc/NLMPC/NLOptimizer.hpp: run", "include/mpc/NLMPC.hpp: optimize", "include/mpc/IMPC.hpp: getLastResult, getOptimalSequence"]}
{"id": "C59", "title": "No well-formed history of calls on the nonlinear controller reaches undefined behaviour", "statement": "For all valid dimensions and every history of public calls with arguments of the documented sizes, no out-of-range access, size mismatch, null or dangling pointer use, failed assertion or exception happens, except the documented exceptions of unsupported calls.", "quantifier": "every history of API calls with well-formed arguments, every solver outcome, every user function", "why_tests_cant": "Undefined behaviour may go unnoticed in a run, and histories are unbounded.", "anchors": ["include/mpc/NLMPC.hpp", "include/mpc/NLMPC/NLOptimizer.hpp", "include/mpc/NLMPC/Objective.hpp", "include/mpc/NLMPC/Constraints.hpp", "include/mpc/NLMPC/Mapping.hpp"]}
{"id": "C60", "title": "Static and dynamic dimensions behave alike", "statement": "A nonlinear controller built with compile-time sizes and one built with the same sizes at run time answer every history of calls identically.", "quantifier": "every history of API calls, every dimension tuple", "why_tests_cant": "Two programs must agree on all histories.", "anchors": ["include/mpc/NLMPC.hpp: setEqConFunction", "include/mpc/Dim.hpp", "include/mpc/IDimensionable.hpp"]}
{"id": "C61", "title": "A controller can be built for every dimensions setDimension accepts", "statement": "For all non-negative sizes and positive horizons the construction of the controller succeeds.", "quantifier": "every dimension tuple accepted by setDimension", "why_tests_cant": "Universal over dimension tuples.", "anchors": ["include/mpc/NLMPC/Mapping.hpp: computeMapping", "include/mpc/IDimensionable.hpp: setDimension"]}
{"id": "C62", "title": "Execution statistics are about exactly the results optimize returned", "statement": "After any history of calls on a controller, getExecutionStats describes exactly the optimize calls that returned a result since the last reset: their number, total, mean, shortest and longest duration, and the number per status; other calls do not change it, and keeping statistics changes nothing else.", "quantifier": "every history of API calls on either controller, every solver outcome, every clock", "why_tests_cant": "Histories are unbounded and interleave statistics with all other calls.", "anchors": ["include/mpc/IMPC.hpp: optimize, getExecutionStats, resetStats", "include/mpc/Profiler.hpp"]}
{"id": "C63", "title": "With an exact QP solver the linear controller returns the first command of a best plan", "statement": "If OSQP hands back an exact solution of its problem, the returned command is the first one of a command sequence which satisfies the configured bounds, scalar constraints and control horizon along the simulated plant, and has the least tracking cost of all such sequences.", "quantifier": "every configuration history, measured state, last command and horizon", "why_tests_cant": "Optimality quantifies over all plans, and the configuration over all histories.", "anchors": ["include/mpc/LMPC.hpp: optimize", "include/mpc/LMPC/LOptimizer.hpp: run", "include/mpc/LMPC/ProblemBuilder.hpp: get"]}
{"id": "C64", "title": "Bounds of the nonlinear controller limit the physical inputs and states", "statement": "When the solver answers within the box it was given, the returned command lies within the input bounds set last for the first step and the reported states within the state bounds set last for their steps.", "quantifier": "every history of API calls, including scaling factors, and every solver answer within its box", "why_tests_cant": "Universal over histories and solver vectors; scaling is 1 in the tests.", "anchors": ["include/mpc/NLMPC.hpp: setInputBounds, setStateBounds, setInputScale, setStateScale", "include/mpc/NLMPC/NLOptimizer.hpp: run"]}
{"id": "C65", "title": "With an exact solver the nonlinear controller returns the first input of a best plan", "statement": "If NLopt answers with an exact solution of its problem, the returned command is the first input of a plan which starts at the measured state, satisfies the model, the user constraints (within tolerance), the bounds and the control horizon, and minimises the user's objective among all such plans.", "quantifier": "every configuration history with hard constraints and each function set once, every user functions, measured state and horizons", "why_tests_cant": "Optimality quantifies over all plans, and the configuration over all histories.", "anchors": ["include/mpc/NLMPC.hpp: optimize", "include/mpc/NLMPC/NLOptimizer.hpp: run", "include/mpc/NLMPC/Objective.hpp: evaluate", "include/mpc/NLMPC/Constraints.hpp: evaluateIneq, evaluateEq, evaluateStateModelEq", "include/mpc/NLMPC/Mapping.hpp: unwrapVector"]}
{"id": "C66", "title": "The linear result is flagged feasible exactly for usable solver outcomes", "statement": "After any history, the result of optimize is flagged feasible if and only if OSQP handed back vectors with code solved, solved inaccurately or iteration limit reached, and then reports the solver's code and cost; results with status INFEASIBLE, ERROR or UNKNOWN are never flagged feasible.", "quantifier": "every history of API calls, every integer solver code, every solver answer", "why_tests_cant": "Universal over codes and histories.", "anchors": ["include/mpc/LMPC/LOptimizer.hpp: run, convertToResultStatus"]}
{"id": "C67", "title": "Difference quotient steps follow the magnitude of their own variable", "statement": "Every gradient entry which the nonlinear controller hands to the solver is a difference quotient whose step is a fixed small number times the magnitude (at least one) of the very variable that is perturbed: the state or input component at that step of the horizon.", "quantifier": "every history of API calls, every user function, every decision vector, every entry of every gradient", "why_tests_cant": "A unit test checks a gradient at a few points of small magnitude, where all steps coincide; which variable sets the step shows only at points with entries of different magnitudes.", "anchors": ["include/mpc/NLMPC/Objective.hpp: computeJacobian", "include/mpc/NLMPC/Constraints.hpp: computeIneqJacobian, computeEqJacobian, computeStateEqJacobian"]}
{"id": "C68", "title": "Gradient accuracy for smooth user functions", "statement": "Inside optimize, for user functions (objective, inequality and equality constraints, model) with an L-Lipschitz derivative, the value handed to the solver is that of the user function on the trajectory of the decision vector, and every gradient entry differs from the true partial derivative of that function of the decision vector by at most a constant (horizon, scaling, sampling time) times L times step times the magnitude of the trajectory.", "quantifier": "every history of API calls, every smooth user function, every decision vector", "why_tests_cant": "Quantifies over all smooth functions and all points; a test can only compare a few derivatives within a tolerance.", "anchors": ["include/mpc/NLMPC/Objective.hpp: computeJacobian, evaluate", "include/mpc/NLMPC/Constraints.hpp: evaluateIneq, evaluateEq, evaluateStateModelEq"]}
{"id": "C69", "title": "The exact linear command is unique and independent of the history", "statement": "With non-negative weights and a positive weight on every command or on its increment, the problem optimize poses has at most one solution; so two controllers whose histories leave the same configuration and which are asked about the same state with the same last command return the same command and sequences when OSQP solves both problems exactly, whatever happened to them before (earlier answers, warm starts, parameters).", "quantifier": "every pair of histories of API calls leaving the same configuration, every state, last command and horizons", "why_tests_cant": "Uniqueness quantifies over all decision vectors, independence over all pairs of histories.", "anchors": ["include/mpc/LMPC.hpp: optimize", "include/mpc/LMPC/LOptimizer.hpp: run", "include/mpc/LMPC/ProblemBuilder.hpp: get, getObjective"]}
{"id": "C70", "title": "At rest at the target the linear controller keeps the command", "statement": "If holding the last command keeps the measured state, all limits hold there, every weighted output and command is at its reference and the increment references are zero, then (exact solver, non-negative weights, every command or increment weighted) optimize returns the last command and the reported sequences are constant; such a rest is always a solution of the problem posed.", "quantifier": "every plant, configuration, equilibrium, disturbance and horizons", "why_tests_cant": "Quantifies over all equilibria of all plants.", "anchors": ["include/mpc/LMPC.hpp: optimize", "include/mpc/LMPC/ProblemBuilder.hpp: get"]}
{"id": "C71", "title": "Only the proportion of the weights matters", "statement": "Multiplying all weights by one positive factor does not change which plans are optimal for the problem optimize poses.", "quantifier": "every configuration history, positive factor, state and last command", "why_tests_cant": "Quantifies over all configurations and all plans.", "anchors": ["include/mpc/LMPC.hpp: setObjectiveWeights, optimize", "include/mpc/LMPC/ProblemBuilder.hpp: setObjective, get"]}
{"id": "C72", "title": "The reported linear cost is the documented cost of the reported sequence", "statement": "When OSQP solves exactly and reports the objective of its solution, the cost in the result is the documented tracking cost of the reported sequence, in some fixed unit.", "quantifier": "every configuration history, state, last command and exact answer", "why_tests_cant": "Quantifies over all configurations and states.", "anchors": ["include/mpc/LMPC.hpp: optimize", "include/mpc/LMPC/LOptimizer.hpp: run", "include/mpc/Types.hpp: Result", "docs/source/manual/manual.rst: cost"]}
{"id": "C73", "title": "Relaxing limits never makes the linear problem harder", "statement": "If one configuration differs from another in looser limits only, every vector allowed by the problem posed before is allowed after, and with exact solutions the tracking cost of the reported plan does not rise.", "quantifier": "every pair of configuration histories with looser limits, every state and last command", "why_tests_cant": "Quantifies over pairs of configurations and all decision vectors.", "anchors": ["include/mpc/LMPC.hpp: setStateBounds, setInputBounds, setOutputBounds, setScalarConstraint, optimize", "include/mpc/LMPC/ProblemBuilder.hpp: get"]}
{"id": "C74", "title": "Controllers in one program do not influence each other", "statement": "In a program with any number of controllers, constructed, called and destroyed in any order, every controller returns what it would return if the others did not exist; a copy of a controller is such a controller of its own.", "quantifier": "every program that constructs, copies, assigns, calls and destroys controllers, every interleaving of the calls", "why_tests_cant": "Quantifies over all programs with several controllers and all interleavings.", "anchors": ["include/mpc/IMPC.hpp: optPtr", "include/mpc/LMPC.hpp: LMPC, onSetup, builder", "include/mpc/NLMPC.hpp: NLMPC, ~NLMPC, onSetup, buildInternalModules", "include/mpc/LMPC/ProblemBuilder.hpp: Problem"]}
{"id": "C75", "title": "Destroying controllers releases their memory exactly once", "statement": "In every program, destroying a live controller never releases memory twice, and when no controller is left, none of the memory they allocated is left.", "quantifier": "every program that constructs, copies, assigns, calls and destroys controllers", "why_tests_cant": "Quantifies over all programs; a test covers the programs it runs.", "anchors": ["include/mpc/LMPC.hpp: ~LMPC, onSetup", "include/mpc/NLMPC.hpp: ~NLMPC, onSetup", "include/mpc/IMPC.hpp: optPtr"]}
{"id": "C76", "title": "The linear controller does not depend on the unit of its signals", "statement": "Multiplying the start, the last command, all references, all disturbances and all limits by one nonzero factor (a negative one exchanges lower and upper limits) multiplies the solutions of the problem handed to the solver, the returned command and the reported sequences by that factor; in particular the mirrored problem gets the mirrored command.", "quantifier": "every configuration, every factor other than zero, every start, every exact answer of the solver", "why_tests_cant": "Quantifies over all configurations, factors and solutions.", "anchors": ["include/mpc/LMPC/ProblemBuilder.hpp: build, buildObj", "include/mpc/LMPC.hpp: setStateSpaceModel, setReferences, setStateBounds, setInputBounds, setOutputBounds", "include/mpc/LMPC/LOptimizer.hpp: run"]}
{"id": "C77", "title": "The linear controller depends on the model only through its response", "statement": "Two models of possibly different order, related by a map of the states under which they respond alike to every command and disturbance, get the same command and the same command sequence, provided no state is limited: changing the state coordinates, or adding states without influence, changes nothing.", "quantifier": "every pair of configurations related by a linear map of states, every start", "why_tests_cant": "Quantifies over all models, orders and maps.", "anchors": ["include/mpc/LMPC/ProblemBuilder.hpp: build", "include/mpc/LMPC.hpp: setStateSpaceModel", "include/mpc/LMPC/LOptimizer.hpp: run"]}
{"id": "C78", "title": "In closed loop the plant follows the reported first step", "statement": "If the plant behaves like the model and the solver is exact, then in every step of every closed loop the state reached next is the second row of the reported state sequence, it and the output computed from it satisfy the limits configured for the first step.", "quantifier": "every configuration, every number of steps, every loop of optimize calls", "why_tests_cant": "Quantifies over loops of any length; a simulation covers one.", "anchors": ["include/mpc/LMPC.hpp: getOptimalSequence", "include/mpc/IMPC.hpp: optimize", "include/mpc/LMPC/LOptimizer.hpp: run", "include/mpc/LMPC/ProblemBuilder.hpp: build"]}
{"id": "C79", "title": "A closed loop at rest stays at rest", "statement": "If the plant behaves like the model, the solver is exact, the weights are nonnegative and every command is weighted, a closed loop which starts at rest at its target keeps state and command in all steps.", "quantifier": "every configuration with a resting start, every number of steps", "why_tests_cant": "Quantifies over loops of any length and all equilibria.", "anchors": ["include/mpc/IMPC.hpp: optimize", "include/mpc/LMPC/LOptimizer.hpp: run", "include/mpc/LMPC/ProblemBuilder.hpp: build, buildObj"]}
{"id": "C80", "title": "The solver reads the values and gradients of the functions set", "statement": "Inside every optimize, after any sequence of callbacks, each callback of the objective or of a constraint runs without writing outside the memory the solver provides, returns the value of the function set last (objective, inequality, equality, model defects) and, if a gradient is requested, fills all of it, in the solver's layout, with difference quotients of that function.", "quantifier": "every history of calls, every sequence of callbacks, every decision vector, every former content of the memory", "why_tests_cant": "Quantifies over histories, callbacks and decision vectors, and over memory contents a test cannot control.", "anchors": ["include/mpc/NLMPC/NLOptimizer.hpp: nloptObjFunWrapper, nloptEqConFunWrapper, nloptUserIneqConFunWrapper, nloptUserEqConFunWrapper, bind, bindEq, bindUserIneq, bindUserEq", "include/mpc/NLMPC/Constraints.hpp: evaluateIneq, evaluateEq, evaluateStateModelEq", "include/mpc/NLMPC/Objective.hpp: evaluate"]}
{"id": "C81", "title": "Without limits the linear controller obeys superposition", "statement": "For linear controllers with the same model and weights and no limits: if the measured state, last command, references and disturbances of a third call are a linear combination of those of two other calls, the same combination of solutions of the first two problems handed to OSQP solves the third, and with exact answers and a positive weight on every command or its increment the returned command and reported sequences are that combination of theirs.", "quantifier": "every model, every non-negative weights, every signals, every factors, every histories leading there", "why_tests_cant": "Quantifies over all states, references, disturbances, models and histories.", "anchors": ["include/mpc/LMPC/LOptimizer.hpp: run", "include/mpc/LMPC/ProblemBuilder.hpp: buildTITerms, buildTVTerms, get", "include/mpc/LMPC.hpp: setReferences, setExogenousInputs, optimize"]}
{"id": "C82", "title": "Without limits the linear controller is solvable and is one linear law", "statement": "For every model and non-negative weights with a positive weight on every command or its increment, and without limits, the problem handed to OSQP always has a solution, and there is one linear function of measured state, last command, references and disturbances which gives the inputs of the reported sequence and the command of every exactly answered call of every history with this model and these weights.", "quantifier": "every model, every such weights, every horizons, every signals, every history", "why_tests_cant": "An existence statement for every model; the law has to hold for all states, references and disturbances.", "anchors": ["include/mpc/LMPC/LOptimizer.hpp: run", "include/mpc/LMPC/ProblemBuilder.hpp: buildTITerms, buildTVTerms, get", "include/mpc/LMPC.hpp: setReferences, setExogenousInputs, optimize"]}
{"id": "C83", "title": "The linear and the nonlinear controller agree on the same task", "statement": "Set up a nonlinear controller with user functions for the plant, the tracking cost and the limits on states and commands configured on a linear controller, with the control horizon equal to the prediction horizon. Asked about the same measured state after the same command, both return the same command and report the same sequences of states and inputs, provided OSQP and NLopt answer exactly and every command or its increment has a positive weight.", "quantifier": "every plant, every non-negative weights that determine the commands, every references, disturbances, limits, every histories leading there", "why_tests_cant": "Compares two different problem encodings for all tasks, states and histories.", "anchors": ["include/mpc/LMPC/LOptimizer.hpp: run", "include/mpc/LMPC/ProblemBuilder.hpp: get", "include/mpc/NLMPC/NLOptimizer.hpp: run", "include/mpc/NLMPC/Constraints.hpp", "include/mpc/NLMPC/Objective.hpp", "include/mpc/NLMPC/Mapping.hpp"]}
{"id": "C84", "title": "A residual of the QP solver is an error of the same size in physical units", "statement": "If OSQP's answer satisfies every row of its problem up to a residual eps, the reported states, inputs and outputs respect their limits up to eps, the sequence starts within eps of the measured state and follows the plant up to (1+beta)*eps per step, and a plant driven by the reported inputs stays within an explicit bound (growing with the row sums of A and B) of the reported states and of the limits. Conversely a vector with these physical errors has residual at most eps.", "quantifier": "every plant, every limits, every residual, every answer, every history", "why_tests_cant": "Quantifies over all answers with a residual, all plants and all horizons.", "anchors": ["include/mpc/LMPC/ProblemBuilder.hpp: buildTITerms, buildTVTerms, get", "include/mpc/LMPC/LOptimizer.hpp: run"]}
{"id": "C85", "title": "A nearly optimal answer gives a nearly optimal command", "statement": "If OSQP's answer is feasible and its cost at most eps above the least, the returned command differs from the exact one by at most the square root of 4*eps divided by the sum of the weights on that command and its increment; the same holds for every reported input and output in its weight.", "quantifier": "every plant, every non-negative weights, every limits, every eps, every answers, every histories", "why_tests_cant": "Quantifies over all nearly optimal answers and all configurations.", "anchors": ["include/mpc/LMPC/ProblemBuilder.hpp: buildTITerms, get", "include/mpc/LMPC/LOptimizer.hpp: run"]}
{"id": "C86", "title": "A linear closed loop that once finds a plan keeps finding one", "statement": "When the limits do not get looser along the horizon, the announced disturbance is constant, the limits of the last step can be kept one step longer (for instance because they pin the state to an equilibrium that respects all limits) and OSQP solves every problem that can be satisfied, then a satisfiable first problem is enough: every later problem of the closed loop can be satisfied and is solved, and the plant and its commands respect the limits of the first step for ever.", "quantifier": "every plant, every limits with these properties, every start, every number of steps", "why_tests_cant": "Quantifies over all closed loops of unbounded length; tests run finitely many steps of finitely many plants.", "anchors": ["include/mpc/LMPC/ProblemBuilder.hpp: buildTITerms, get", "include/mpc/LMPC/LOptimizer.hpp: run", "include/mpc/LMPC.hpp: setStateBounds", "include/mpc/IMPC.hpp: optimize"]}
{"id": "C87", "title": "What a linear closed loop costs is at most what its first plan costs, and weighted signals converge", "statement": "When moreover the weights do not decrease along the horizon, references are constant and the last step can be prolonged at no cost, the sum of the costs of the steps the closed loop really takes, over any number of steps, is at most the cost of any plan allowed by the first problem; in a loop that goes on for ever every output and every command with a positive weight approaches its reference.", "quantifier": "every plant, every weights and references with these properties, every number of steps", "why_tests_cant": "Quantifies over all closed loops, and speaks about their limit.", "anchors": ["include/mpc/LMPC/ProblemBuilder.hpp: buildTITerms, get", "include/mpc/LMPC/LOptimizer.hpp: run", "include/mpc/LMPC.hpp: setObjectiveWeights, setReferences", "include/mpc/IMPC.hpp: optimize"]}
{"id": "C88", "title": "An exception of a user function during a search is a failed optimisation and leaves nothing else behind", "statement": "If a function of the user of the nonlinear controller throws while NLopt searches, or while the feasibility of its answer is checked, optimize still returns: status ERROR, code -1, not feasible, infinite cost, the last command, a sequence of zeros. Evaluations left half way have no influence on anything later: two histories with the same calls, arguments and endings of the solver return the same from every call, give the solver the same settings, initial points, function values and gradients, whichever callbacks were made or left by exceptions; and nothing is read or written out of bounds.", "quantifier": "every history of calls, every placement of exceptions in callbacks and checks, every contents left behind by an interrupted evaluation", "why_tests_cant": "An exception can leave an evaluation at any point, after any history, with anything in the working arrays.", "anchors": ["include/mpc/NLMPC/NLOptimizer.hpp: run, nloptObjFunWrapper, nloptEqConFunWrapper, nloptUserIneqConFunWrapper, nloptUserEqConFunWrapper", "include/mpc/NLMPC/Objective.hpp: evaluate", "include/mpc/NLMPC/Constraints.hpp: evaluateStateModelEq, evaluateIneq, evaluateEq, isFeasible"]}
{"id": "C89", "title": "If optimize leaves with an exception, the last result and the optimal sequence are the old ones", "statement": "When optimize itself throws because the output function of the user does, getLastResult and getOptimalSequence return what they returned before the call.", "quantifier": "every history of calls, every call left by an exception", "why_tests_cant": "Quantifies over all histories; the exception must come after the solver has answered.", "anchors": ["include/mpc/NLMPC/NLOptimizer.hpp: run", "include/mpc/IMPC.hpp: optimize"]}
{"id": "C90", "title": "A refused call explains itself in the log", "statement": "Every API call which returns false or throws leaves exactly one error message in the log, which says what did not fit; calls which succeed leave none. At level NORMAL and ALERT the line appears, with its tag, in the stream in force and in no other.", "quantifier": "every program with any number of controllers, every call in every state, every level, prefix and stream", "why_tests_cant": "Quantifies over all programs, all arguments and all log settings; the messages come from many places in the code.", "anchors": ["include/mpc/IMPC.hpp: isPredictionHorizonSliceValid, isControlHorizonSliceValid", "include/mpc/Logger.hpp: log, operator<<", "include/mpc/LMPC.hpp: setScalarConstraint, setInputScale, setStateScale", "include/mpc/NLMPC.hpp: setOutputBounds, setStateSpaceFunction", "include/mpc/NLMPC/NLOptimizer.hpp: bindEq"]}
{"id": "C91", "title": "Log settings belong to the controller they are set on, and logging never changes a result", "statement": "setLoggerLevel and setLoggerPrefix of a controller decide how the messages of that controller look, and of no other. Whatever is logged, and however, every call returns what it would return without logging; at level NONE nothing is written; a program which runs without logging runs with it as long as the stream is not null.", "quantifier": "every program with any number of controllers, every interleaving of settings and calls", "why_tests_cant": "Quantifies over all interleavings of calls on several controllers.", "anchors": ["include/mpc/IMPC.hpp: setLoggerLevel, setLoggerPrefix", "include/mpc/Logger.hpp: instance, setLevel, setPrefix, setStream, reset"]}
{"id": "C92", "title": "The log reports every optimize truthfully", "statement": "Each optimize leaves exactly one report of type INFO, and its lines give the duration, the status and the code of the solver, the feasibility, the status message and the cost of the very result which the call returns; the status message is empty unless the solver failed with an exception, and then gives the reason. A failed optimize also leaves an error message, so that it shows at level ALERT.", "quantifier": "every program, every call of optimize, every behaviour of the solver, every level, prefix and stream", "why_tests_cant": "Quantifies over all programs and everything the solver can answer.", "anchors": ["include/mpc/IMPC.hpp: optimize", "include/mpc/LMPC/LOptimizer.hpp: run", "include/mpc/NLMPC/NLOptimizer.hpp: run", "include/mpc/Logger.hpp: log, operator<<"]}
{"id": "C93", "title": "The states reported by the nonlinear controller are a simulation of the model", "statement": "With a discrete model of tolerance tol (unit state scaling) and a solver answer which satisfies the problem it was given, the state which the plant reaches with the returned command, if it behaves like the model, differs from the reported state of the first step by at most tol; over the horizon the reported states differ from the simulation with the reported inputs by at most tol (1 + L + ... + L^(k-1)), L being the Lipschitz constant of the model; with tolerance zero they are that simulation.", "quantifier": "every history of calls, every model, every usable answer of the solver, every horizon", "why_tests_cant": "Quantifies over all user models and solver answers; the error accumulates along the horizon.", "anchors": ["include/mpc/NLMPC.hpp: setStateSpaceFunction, optimize", "include/mpc/NLMPC/NLOptimizer.hpp: run, bindEq", "include/mpc/NLMPC/Constraints.hpp: getStateEqConstraints"]}
{"id": "C94", "title": "A nonlinear closed loop that once finds a plan keeps finding one", "statement": "If the plant behaves like the configured discrete model, limits do not get looser along the horizon, the user constraints are constraints on each step and on the last state, and from each state allowed at the end an allowed input leads to another one, then, with a solver which answers every problem that can be satisfied, one satisfiable problem at the start is enough: every later problem of the loop can be satisfied; commands and plant states respect the limits of the first step and the constraints of a step, and the plant goes where the controller said.", "quantifier": "every configuration of this kind, every number of steps of the loop, every such solver (its answers need not be optimal)", "why_tests_cant": "Quantifies over loops of any length, with the whole history of the controller in every step.", "anchors": ["include/mpc/NLMPC.hpp: optimize, setIneqConFunction, setEqConFunction", "include/mpc/NLMPC/NLOptimizer.hpp: run", "include/mpc/NLMPC/Constraints.hpp: evaluateIneq, evaluateEq, evaluateStateModelEq"]}
{"id": "C95", "title": "What a nonlinear closed loop costs is at most what its first plan costs, and the cost of a step becomes small", "statement": "If moreover the objective is the sum of nonnegative costs of the steps and a terminal cost which pays for staying in the terminal set, the sum of the costs of the steps made by the closed loop is at most the cost of any plan allowed at the start, plus the accuracy of the solver for every step; with exact answers the cost of a step tends to zero.", "quantifier": "every configuration of this kind, every number of steps, every accuracy of the solver", "why_tests_cant": "Quantifies over loops of any length; convergence is a statement about infinite runs.", "anchors": ["include/mpc/NLMPC.hpp: optimize, setObjectiveFunction", "include/mpc/NLMPC/NLOptimizer.hpp: run", "include/mpc/NLMPC/Objective.hpp: evaluate"]}
{"id": "C96", "title": "Relaxing limits, tolerances or constraints never makes the nonlinear problem harder", "statement": "With wider limits, larger tolerances or fewer constraints, and otherwise the same, a problem that could be satisfied still can; the best plan costs no more; and if the best plan of the relaxed problem satisfies the stricter one, it is best there too.", "quantifier": "every pair of histories of calls, one asking at least what the other asks, every measured state", "why_tests_cant": "Quantifies over all pairs of configurations and all plans.", "anchors": ["include/mpc/NLMPC.hpp: setStateBounds, setInputBounds, setIneqConFunction, setEqConFunction", "include/mpc/NLMPC/NLOptimizer.hpp: run, setBounds"]}
{"id": "C97", "title": "The exact nonlinear command depends only on the task and the measured state", "statement": "Two nonlinear controllers, with static or dynamic dimensions, whose histories ask the same of a plan and set the same objective, report plans of the same cost when their solvers answer exactly; if the task has only one best plan, both report it and return the same command, whatever was set and replaced or optimised before, with any last command, with or without warm start.", "quantifier": "every pair of histories with the same configuration in force, every measured state, every last command", "why_tests_cant": "Quantifies over all pairs of histories.", "anchors": ["include/mpc/NLMPC.hpp: optimize", "include/mpc/NLMPC/NLOptimizer.hpp: run", "include/mpc/NLMPC/Constraints.hpp: evaluateStateModelEq"]}
{"id": "C98", "title": "Only the order of the costs matters to the nonlinear controller", "statement": "When the objective is replaced by a strictly increasing function of it (a positive multiple, a sum with a constant), exact answers still report best plans of the original objective; if there is only one best plan the command is the same.", "quantifier": "every history, every objective, every strictly increasing function", "why_tests_cant": "Quantifies over all objectives and all increasing functions.", "anchors": ["include/mpc/NLMPC.hpp: setObjectiveFunction, optimize", "include/mpc/NLMPC/NLOptimizer.hpp: run", "include/mpc/NLMPC/Objective.hpp: evaluate"]}
{"id": "C99", "title": "User functions always act on the current values of the variables they read", "statement": "A model, objective, output or constraint function may read variables of the program (a set point, an obstacle, a counter) which change between calls and while the solver searches. Every evaluation uses the values there are at that time, and every call of the API returns what it would return if the variables had always had their present values: nothing computed with earlier values is kept in the controller and used again.", "quantifier": "every history of calls, every way the variables change between calls and between evaluations, every user function, every solver answer", "why_tests_cant": "Quantifies over all histories and all ways the captured variables change; a stale value would show up only in particular orders of calls.", "anchors": ["include/mpc/NLMPC.hpp: setObjectiveFunction, setStateSpaceFunction, setOutputFunction, setIneqConFunction, setEqConFunction, optimize", "include/mpc/NLMPC/NLOptimizer.hpp: run", "include/mpc/NLMPC/Objective.hpp: evaluate", "include/mpc/NLMPC/Constraints.hpp: evaluateIneq, evaluateEq, evaluateStateModelEq", "include/mpc/NLMPC/Model.hpp: vectorField, outUser", "examples/ugv_ex.cpp"]}
{"id": "C100", "title": "Separate controllers may be used from separate threads without synchronisation", "statement": "If every controller is constructed, used and destroyed by one thread only, no two threads access the same memory with one of them writing, whatever the schedule.", "quantifier": "every number of threads, every program of each of them (construction, copies, calls, destruction, logger settings), every schedule, both kinds of controllers", "why_tests_cant": "A race needs a particular overlap of two threads and mostly has no visible effect; no test run enumerates schedules.", "anchors": ["include/mpc/Logger.hpp: instance, log, operator<<, setLevel, setPrefix, setStream, reset", "include/mpc/IMPC.hpp: optimize, setLoggerLevel, setLoggerPrefix, onInit", "include/mpc/LMPC.hpp", "include/mpc/NLMPC.hpp"]}
{"id": "C101", "title": "Controllers in different threads do not influence each other's results", "statement": "Under every schedule, the calls a thread makes on its own controllers return, and report in their messages, exactly what they would in a program consisting of this thread alone, and leave its controllers in the same state; if every thread would run without fault alone, so does every schedule of all of them, and every schedule can be continued until all have finished.", "quantifier": "every number of threads, every program of each of them, every schedule, every point of the schedule, both kinds of controllers", "why_tests_cant": "Quantifies over all interleavings of all programs.", "anchors": ["include/mpc/Logger.hpp: instance", "include/mpc/IMPC.hpp: optimize", "include/mpc/LMPC.hpp", "include/mpc/NLMPC.hpp", "include/mpc/LMPC/LOptimizer.hpp", "include/mpc/NLMPC/NLOptimizer.hpp"]}
{"id": "C102", "title": "Messages of concurrent controllers arrive whole and filtered by the level", "statement": "When several threads use controllers and nobody changes the settings of the logger, the log contains in the end exactly the messages at or above the level, each with its tag and its full text, in an order which keeps that of every thread.", "quantifier": "every number of threads, every program of each of them, every schedule, every level, prefix and stream", "why_tests_cant": "The failing interleavings are rare and depend on the scheduler.", "anchors": ["include/mpc/Logger.hpp: log, operator<<, currentType, thresholdLevel", "include/mpc/IMPC.hpp: optimize"]}
{"id": "C103", "title": "Floating-point: without disturbances the constraints given to OSQP are exact", "statement": "Computing with floating-point numbers, when no disturbance is announced (or none has an effect), the plans OSQP may choose from are exactly the plans of the configured plant from the measured state which respect the configured limits: no rounding enters the constraints. With any disturbances, the dynamics remain equalities and consistent limits give l <= u in every row.", "quantifier": "every rounding (every precision), every dimension, every history of calls, every measured state and last command, every decision vector", "why_tests_cant": "Quantifies over all numbers and all configurations; a test compares with a tolerance.", "anchors": ["include/mpc/LMPC/ProblemBuilder.hpp: generateEqualityConstraints, generateInequalityConstraints, get", "include/mpc/LMPC/LOptimizer.hpp: run"]}
{"id": "C104", "title": "Floating-point: disturbances shift the constraints by their rounding error only", "statement": "With disturbances, a vector which satisfies the rows given to OSQP up to a residual is a plan of the configured plant up to this residual and a bounded multiple of the unit roundoff times the size of the disturbance terms, and conversely; the multiple does not depend on the horizon.", "quantifier": "every rounding, every dimension, every history of calls, every residual, every decision vector", "why_tests_cant": "Quantifies over all numbers, and the bound is uniform over all dimensions.", "anchors": ["include/mpc/LMPC/ProblemBuilder.hpp: get, generateEqualityConstraints, generateInequalityConstraints", "include/mpc/LMPC/LOptimizer.hpp: run"]}
{"id": "C105", "title": "Floating-point: the objective is the configured cost up to rounding", "statement": "Up to a constant, the objective given to OSQP differs from the configured cost of a plan by at most the relative error of nu + ny + ndu + 4 operations, measured on the cost without cancellations; so an answer within epsilon of the optimum of the problem given is within epsilon and these errors of the best plan.", "quantifier": "every rounding, every dimension, every history of calls, every plan", "why_tests_cant": "Quantifies over all numbers; tests check a few values with a tolerance.", "anchors": ["include/mpc/LMPC/ProblemBuilder.hpp: generateObjective, get", "include/mpc/LMPC/LOptimizer.hpp: run"]}
{"id": "C106", "title": "Floating-point: non-negative weights give a positive semidefinite Hessian", "statement": "Computing with floating-point numbers, when all weights are non-negative the Hessian given to OSQP is positive semidefinite (OSQP requires it).", "quantifier": "every rounding, every dimension, every history of calls with non-negative weights, every direction", "why_tests_cant": "The failures are in the last bit of particular coefficients.", "anchors": ["include/mpc/LMPC/ProblemBuilder.hpp: generateObjective", "include/mpc/LMPC/LOptimizer.hpp: run"]}
{"id": "C107", "title": "Floating-point: reported sequences are copies of OSQP's answer", "statement": "Computing with floating-point numbers, the states, inputs and the command reported are the numbers of OSQP's answer without any rounding; outputs are those of the reported states up to the relative error of nx + ndu + 2 operations; when the answer satisfies its rows up to a residual, the reported sequence follows the plant and respects the limits up to the residual and the rounding errors, and the plant driven by it stays within an explicit drift.", "quantifier": "every rounding, every dimension, every history of calls, every answer of OSQP", "why_tests_cant": "Quantifies over all numbers and answers.", "anchors": ["include/mpc/LMPC/LOptimizer.hpp: run", "include/mpc/LMPC.hpp: optimize, getOptimalSequence"]}
{"id": "C108", "title": "Constraint tolerances are the numbers the user passes", "statement": "The feasibility flag of a result, and the tolerances given to NLopt, use the tolerance which the user passed to setIneqConFunction and setEqConFunction.", "quantifier": "every tolerance, every sequence of API calls, every answer of the solver, every constraint function", "why_tests_cant": "A test checks a few values away from the boundary; the claim is about the exact boundary of every tolerance.", "anchors": ["include/mpc/NLMPC.hpp: setIneqConFunction, setEqConFunction", "include/mpc/NLMPC/Constraints.hpp: setIneqConstraints, setEqConstraints, isFeasible"]}
{"id": "C109", "title": "Floating-point: the reported average solution time lies between the extremes", "statement": "Computing with floating-point numbers, after any recorded solutions the reported average solution time is at least the reported minimum and at most the reported maximum; the number of solutions, minimum and maximum are those of the measured durations.", "quantifier": "every precision, every sequence of solutions, statuses and resets, every clock reading", "why_tests_cant": "Quantifies over all sequences of clock readings; a test sees a few.", "anchors": ["include/mpc/Profiler.hpp: addSolutionTime, solutionEnd"]}
{"id": "C110", "title": "Floating-point: the solver gets the values of the user functions at the decision vector", "statement": "Computing with floating-point numbers, the value of the objective and of every user constraint which reaches the nonlinear solver is exactly what the user function returned, for the slack of the decision vector and for states and inputs which are those of the decision vector up to a few units in the last place (exactly these for unit scalings). Without rounding, all evaluations are those of the exact model.", "quantifier": "every precision, every sequence of API calls, every sequence of earlier evaluations, every decision vector, every user function", "why_tests_cant": "Quantifies over all decision vectors, scalings, functions and histories in rounded arithmetic.", "anchors": ["include/mpc/NLMPC/Objective.hpp: evaluate", "include/mpc/NLMPC/Constraints.hpp: evaluateIneq, evaluateEq", "include/mpc/NLMPC/Mapping.hpp: unwrapVector"]}
{"id": "C111", "title": "Floating-point: constraint derivatives are exactly zero where there is no dependence", "statement": "Computing with floating-point numbers, the derivative of a user constraint or of a model equation with respect to a state, input or slack on which it does not depend is exactly zero.", "quantifier": "every precision, every sequence of API calls and earlier evaluations, every decision vector, every constraint and model function", "why_tests_cant": "Rounding errors may appear anywhere; only a proof excludes them for all functions and points.", "anchors": ["include/mpc/NLMPC/Constraints.hpp: computeIneqJacobian, computeEqJacobian, computeStateEqJacobian, glueJacobian"]}
{"id": "C112", "title": "Floating-point: objective derivatives are exactly zero where there is no dependence", "statement": "Computing with floating-point numbers, the derivative of the objective with respect to a state, input or slack on which it does not depend is exactly zero.", "quantifier": "every precision, every sequence of API calls and earlier evaluations, every decision vector, every objective", "why_tests_cant": "Depends on which numbers are restored exactly after a perturbation; a test sees a few.", "anchors": ["include/mpc/NLMPC/Objective.hpp: evaluate, computeJacobian"]}
{"id": "C113", "title": "Floating-point: accuracy of objective and constraint derivatives", "statement": "Computing with floating-point numbers, the derivatives of the objective and of the user constraints which reach the solver are those of the functions (affine up to a given error around the decision vector), up to an explicit error; in particular the derivative of a soft constraint with respect to the slack has at least the right order of magnitude.", "quantifier": "every precision, every history, every decision vector, every function which is affine up to a given error", "why_tests_cant": "An error bound for all functions, scalings and points cannot be tested.", "anchors": ["include/mpc/NLMPC/Objective.hpp: computeJacobian", "include/mpc/NLMPC/Constraints.hpp: computeIneqJacobian, computeEqJacobian, glueJacobian"]}
{"id": "C114", "title": "Floating-point: a model equation is reported as satisfied exactly when it holds", "statement": "Computing with floating-point numbers, the value of a model equation which reaches the solver is zero exactly when the states and inputs of the decision vector satisfy the equation, and otherwise close to its exact value.", "quantifier": "every precision, every history, every decision vector, every model, discrete and continuous", "why_tests_cant": "Rounding may hide a residual at points no test visits.", "anchors": ["include/mpc/NLMPC/Constraints.hpp: getStateEqConstraints, evaluateStateModelEq"]}
{"id": "C115", "title": "Floating-point: accuracy of the derivatives of the model equations", "statement": "Computing with floating-point numbers, the derivatives of the model equations with respect to scaled states and inputs which reach the solver are those of the equations (for models affine up to a given error around the points of the equation), up to an explicit error.", "quantifier": "every precision, every history, every decision vector, every model which is affine up to a given error, discrete and continuous", "why_tests_cant": "An error bound for all models, scalings and points cannot be tested.", "anchors": ["include/mpc/NLMPC/Constraints.hpp: computeStateEqJacobian, getStateEqConstraints, glueJacobian"]}
{"id": "C116", "title": "Arguments of the wrong size are refused", "statement": "A call of the linear controller with a vector or matrix whose size is not the documented one (possible with dynamic dimensions and from Python) reports failure and changes nothing.", "quantifier": "every dimensions, every sequence of earlier calls, every call with arguments of any sizes", "why_tests_cant": "All combinations of sizes, calls and histories; the consequence of a missed test shows only in a later optimize, or as undefined behaviour.", "anchors": ["include/mpc/LMPC.hpp: setReferences, setExogenousInputs, setStateBounds, setScalarConstraint, setOptimizerParameters", "include/mpc/LMPC/ProblemBuilder.hpp: setStateBounds, setScalarConstraint, get", "include/mpc/LMPC/LOptimizer.hpp: setReferences, setExogenousInputs, run"]}
{"id": "C117", "title": "The Python module offers the C++ API", "statement": "A call of the C++ API, written in Python with numpy arrays and Python functions for the arguments, has the effect and the result it has in C++; a Python call which is refused leaves the controller as it is.", "quantifier": "every method, every arguments of every types and sizes, every user functions, every sequence of calls", "why_tests_cant": "Which overload is chosen depends on the types and shapes of all arguments; a test sees a few, and says nothing of the programs to come.", "anchors": ["python/pybind_export.cpp: expose_LMPC, expose_NLMPC, PYBIND11_MODULE", "include/mpc/NLMPC.hpp: setEqConFunction"]}
{"id": "C118", "title": "Printing the statistics shows the recorded times and leaves the stream as it was", "statement": "Printing getExecutionStats() to a stream shows, for the solutions since the last reset, their number, their shortest, longest, average and total time and the standard deviation to the microsecond, and the share of each status which occurred; numbers the program prints afterwards look as they did before.", "quantifier": "every history of calls, every durations and statuses, every state of the stream", "why_tests_cant": "The text depends on all recorded durations and on the format state of the stream; a test compares one text.", "anchors": ["include/mpc/Profiler.hpp: operator<<, resultStatusToString", "include/mpc/IMPC.hpp: getExecutionStats"]}
{"id": "C119", "title": "Results of user functions with a wrong length are reported", "statement": "A state, output or inequality function of a controller with run-time dimensions (all controllers in Python) may return an array of any length. If the lengths are those of the problem, every call has the same outcome as with functions which fill a vector; a wrong length is reported to the caller: optimize returns, no result is computed from the array and the result is not marked feasible.", "quantifier": "every dimensions, functions, histories of calls, schedules of evaluations by the solver and solver answers", "why_tests_cant": "Which evaluation meets the wrong length depends on the functions registered and on what the solver asks for.", "anchors": ["python/pybind_export.cpp: PYBIND11_MODULE", "include/mpc/NLMPC/Mapping.hpp: unwrapVector", "include/mpc/NLMPC/Constraints.hpp: evaluateIneq, evaluateStateModelEq, isFeasible", "include/mpc/NLMPC.hpp: setStateSpaceFunction, setOutputFunction, setIneqConFunction, optimize"]}
{"id": "C120", "title": "A program which chooses its calls from what it was shown never meets a fault", "statement": "Take a program which decides each call from everything the controller showed it before (return values, last result, predicted sequences), and which only makes legal calls as long as the controller behaves as documented. Whatever the solver does, the program can be run for any number of calls: no call meets a fault, everything shown has the documented size, optimize returns what getLastResult shows. The example programs of the repository (vanderpol, networked oscillators, quadrotor, the two Python examples) are such programs, their setters are accepted and, in the nonlinear ones, every result flagged feasible respects the input limit of the example up to the tolerance given.", "quantifier": "every dimensions, program, number of calls and solver behaviour; for the examples: every pi, tolerances, plant step and solver behaviour", "why_tests_cant": "The calls of a program depend on the results, so the reachable histories are those of an interaction with the solver.", "anchors": ["examples/vanderpol_ex.cpp: main", "examples/networked_oscillators_ex.cpp: main", "examples/quadrotor_ex.cpp: main", "python/examples/example.py", "python/examples/example_nl.py", "include/mpc/LMPC.hpp: optimize, getLastResult, getOptimalSequence", "include/mpc/NLMPC.hpp: optimize"]}
{"id": "C121", "title": "Control loops with obstacles and set points which move", "statement": "Take a program whose objective, constraints or model read variables which the program changes between the calls (such as the preferred velocity and the obstacles of the robot example). If it makes legal calls as long as the controller behaves as documented, it can be run for any number of calls without a fault. Each result is flagged feasible exactly when the reported sequence satisfies the constraints set last, read with the values the variables had in that optimize, up to the tolerance. In the robot example a result flagged feasible keeps every predicted position outside both obstacles up to the tolerance, whatever was in memory before the variables were set, and its discrete model is the exact motion under constant acceleration.", "quantifier": "every dimensions, program, type and values of the variables, number of calls and solver behaviour", "why_tests_cant": "Which values the variables have when a function is called depends on the interleaving of the program with the solver.", "anchors": ["examples/ugv_ex.cpp: main", "include/mpc/NLMPC.hpp: setObjectiveFunction, setIneqConFunction, optimize", "include/mpc/NLMPC/Constraints.hpp: isFeasible", "include/mpc/Utils.hpp: discretization"]}
{"id": "C122", "title": "What the test suite asserts about single components holds for all sizes and data", "statement": "The assertions which the project's own tests make about one choice of sizes and numbers hold for every choice. Linear problem: with nothing but a model set the only finite bounds handed to the solver are those of the dynamics; with bounds set they are the ones given, for every step of the horizon; the first rows of the problem map the stacked states to the outputs. Nonlinear problem: the sizes of the mapping between decision vector and commands, what the states, commands and slack of a decision vector are, which slices starting at zero are valid, the values of the model equations, of user constraints on the current state and of a sum of squares at any decision vector, the default and the set bounds. Tools: which messages a stream gets for each level, prefix and after a reset; cleared statistics, the statistics after one and after three solutions; the discrete double integrator for any number of degrees of freedom and sampling time, and the discrete model of any system whose matrix has a vanishing power.", "quantifier": "every dimensions, matrices, vectors, functions, texts, durations, and, for the logger, every previous history", "why_tests_cant": "The tests check one or a few sizes and constant data; the statements are about all of them.", "anchors": ["test/LMPC/test_lmpc.cpp", "test/NLMPC/test_common.cpp", "test/NLMPC/test_constraints.cpp", "test/NLMPC/test_objective.cpp", "test/NLMPC/test_nloptimizer.cpp", "test/test_logger.cpp", "test/test_profiler.cpp", "test/test_utils.cpp", "include/mpc/LMPC/ProblemBuilder.hpp: get", "include/mpc/NLMPC/Mapping.hpp: unwrapVector", "include/mpc/NLMPC/Constraints.hpp: evaluate*", "include/mpc/Logger.hpp: log", "include/mpc/Profiler.hpp: addSolutionTime", "include/mpc/Utils.hpp: discretization"]}
{"id": "C123", "title": "Signals that play no role do not matter, and signals that are not numbers stay where they belong", "statement": "A reference whose weight is zero and a disturbance which the model does not let act on anything do not influence the problem handed to OSQP, whatever values they have; in particular NaN or an infinity may stand for 'don't care'. For numbers this holds, also between two controllers configured by different histories. For other values it does not: a NaN among the output references, input references or disturbances of a step makes the linear cost of every state and input of that step NaN whatever the weights, an infinite reference of weight zero does the same (zero times infinity), and a NaN disturbance makes every dynamics row and every output row of its step NaN whatever the disturbance model, even for unlimited outputs. It goes no further: increment references affect their own entry only, measured state and last command their own rows only, the other bounds never, and the steps stay apart. Building the problem never fails.", "quantifier": "every accepted configuration history with numeric settings, every choice of double values (numbers, infinities, NaN) for measured state, last command, references and disturbances; the reach of a NaN for signals without infinities", "why_tests_cant": "Tests use finite signals; how NaN and infinities travel through the dense products is a statement about all of them.", "anchors": ["include/mpc/LMPC/ProblemBuilder.hpp: get", "include/mpc/LMPC/LOptimizer.hpp: run, setReferences, setExogenousInputs"]}
{"id": "C124", "title": "The nonlinear solver is given a starting point it takes", "statement": "NLopt searches only from a starting point within the bounds of the decision variables, and throws otherwise; the controller then returns ERROR and its previous command. Whenever the configured problem has a solution the starting point must therefore be within the bounds. It is, exactly when: in a cold start (no answer yet, or no warm start) the measured state is within the bounds of every future state and the last input within those of every input; in a warm start the last answer, one step later, is within the bounds. In a control loop with warm start, limits that do not get looser along the horizon and a first measurement within them, every call starts, whatever is measured later. Otherwise calls can be refused although the problem is solvable (a measured state outside the bounds of later states; bounds on some steps only), and with warm start once a start is refused every later one is, for ever and whatever is measured.", "quantifier": "every accepted history of the nonlinear controller, every measured state and last input, every answer of a solver that keeps to its bounds; loops of any length", "why_tests_cant": "The starting point depends on the whole history; that a refusal repeats for ever is a statement about unboundedly many calls.", "anchors": ["include/mpc/NLMPC/NLOptimizer.hpp: run, setStateBounds, setInputBounds, setStateAndInputBounds", "include/mpc/NLMPC.hpp: optimize"]}
{"id": "C125", "title": "In floating point too, the nonlinear solver is given a starting point it takes", "statement": "If in exact arithmetic the starting point of the nonlinear solver is within the bounds (C124), it is within them in floating point. Computing the starting point rounds the inputs only: each is multiplied by the input scaling and by the rounded reciprocal of the scaling, so that it is off by at most three roundings, relative to its size; states, slack and bounds are exact. Without input scaling, or with powers of two, the starting point is exact. With other scalings an input at its bound can be pushed over it (scaling 0.1, bound 7: the start is 7.000000000000001), NLopt refuses the start, and with warm start every later one, whatever is measured.", "quantifier": "every accepted history of the nonlinear controller, every measured state and last input, every monotone rounding with a relative error bound, in particular IEEE double; loops of any length", "why_tests_cant": "Whether rounding moves an input over its bound depends on the values; tests with one scaling show nothing about the others.", "anchors": ["include/mpc/NLMPC/NLOptimizer.hpp: run", "include/mpc/NLMPC/Mapping.hpp: Iu2z, Iz2u, computeMapping"]}
{"id": "C126", "title": "A user function which is not a number somewhere spoils only the derivatives that see it", "statement": "When user functions of the nonlinear controller return NaN or infinities at some points, the values given to the solver are those the functions return, and a derivative is a number exactly if the function values of its own difference quotient are numbers. Proved: values are passed on; state and slack derivatives of objective and constraints follow their own quotient; component c of a constraint function only affects row c, the state equation of step k only the rows of step k; functions that return numbers give exactly the numbers of the exact model. Violated for inputs (a probe of one input that leaves the domain makes the derivatives with respect to all inputs not a number, because the quotients are multiplied with the dense block matrix) and for the state equation (one component that leaves its domain makes the rows of all components of that step not a number, because the Jacobian is multiplied with the scalings as dense matrices).", "quantifier": "every accepted history of the nonlinear controller, every decision vector, all user functions with double results including NaN and infinities", "why_tests_cant": "Domains of user functions are arbitrary; tests use functions defined everywhere.", "anchors": ["include/mpc/NLMPC/Objective.hpp: evaluate, computeJacobian", "include/mpc/NLMPC/Constraints.hpp: evaluateIneq, evaluateEq, getStateEqConstraints, glueJacobian", "include/mpc/NLMPC/Mapping.hpp: Iz2u"]}
{"id": "C127", "title": "User functions are looked at only where the limits keep the plan", "statement": "At a decision vector within the limits, user functions which return numbers for all states and inputs within the limits (a logarithm or a root kept in its domain by bounds) give the solver numbers only: values and derivatives. Violated: the probes of the difference quotients do not look at the bounds, so that at a limit they leave it, and the slack, which is always zero, is probed at negative values. Proved: the probes stay within a millionth (of the largest entry of states and inputs, or of one) of the current point and never move the measured state, so that it is enough that the functions return numbers within limits widened by that much, or that the point keeps that distance from the limits.", "quantifier": "every accepted history of the nonlinear controller, every decision vector within the limits, all user functions with double results, all dimensions, discrete and continuous time", "why_tests_cant": "Which points the difference quotients probe depends on the decision vector, the solver chooses it.", "anchors": ["include/mpc/NLMPC/Objective.hpp: computeJacobian", "include/mpc/NLMPC/Constraints.hpp: computeIneqJacobian, computeEqJacobian, computeStateEqJacobian"]}
{"id": "C128", "title": "A scaling factor which is accepted leaves the problem made of numbers", "statement": "After any accepted calls of setInputScale and setStateScale, a measured state and last input made of numbers give a starting point made of numbers, and user functions which return numbers everywhere give the solver values and derivatives made of numbers. Violated: zero is accepted as a scaling factor without a word. Then every entry of the starting point for this input is NaN or infinite in every call, and the value of the state equation of this state component is NaN or infinite at every point, while the command, respectively this component of all reported states, is zero whatever the solver answers. Proved for scalings without zeros: the starting point is made of the numbers of exact arithmetic, and all values and derivatives are numbers.", "quantifier": "every accepted history of the nonlinear controller, all measured states, last inputs, answers, decision vectors, user functions with double results, all dimensions, discrete and continuous time", "why_tests_cant": "Which entries are reached by the division by zero depends on dense matrix products over all steps and inputs.", "anchors": ["include/mpc/NLMPC.hpp: setInputScale, setStateScale", "include/mpc/NLMPC/Mapping.hpp: computeMapping", "include/mpc/NLMPC/NLOptimizer.hpp: run", "include/mpc/NLMPC/Constraints.hpp: getStateEqConstraints"]}
{"id": "C129", "title": "A value which is not a number stays where it belongs in the starting point", "statement": "The entries of the point the nonlinear solver starts from are numbers if the entries of the measured state, of the last input or of the last answer they stand for are numbers, whatever the others are. Violated for inputs: one component of the last input which is NaN or infinite (without an answer to start from), or one input of the last answer (warm start), makes every input of every step of the starting point NaN or infinite. Proved: states and slack are exactly the entries they stand for, number or not, and inputs are if all inputs are numbers.", "quantifier": "every accepted history of the nonlinear controller with scalings other than zero, all measured states, last inputs and last answers made of any doubles, all dimensions", "why_tests_cant": "The spread comes from dense products with zeros (0 times NaN is NaN), tests use numbers.", "anchors": ["include/mpc/NLMPC/NLOptimizer.hpp: run", "include/mpc/NLMPC/Mapping.hpp: computeMapping"]}
{"id": "C130", "title": "User functions are called at known points, in a known order and number", "statement": "While optimize runs, each time the solver asks for the objective, the inequality or equality constraints or the state equation, the user functions which are set are called exactly at these points in this order, and nothing else is called: the value at the current trajectories (with the output function at all steps of the horizon, in order, before each call of the objective and the inequality function); then, for derivatives, next to each entry of the states after the measured one, step by step, of the inputs (the last two moved together for objective and equality constraints), and of the slack. The number of calls follows from the dimensions: 1 + ph (nx + nu) + 2 points for the gradient of the objective, 1 + 2 ph (nx + nu) + 2 for the inequality constraints, 1 + 2 ph (nx + nu) for the equality constraints, ph (1 + 2 (nx + nu)) calls of a discrete-time model and twice as many of a continuous-time model. What the solver gets is determined by the answers to these calls. If a user function throws, the evaluation is left with the first call which throws, and no user function is called after it.", "quantifier": "every accepted history of the nonlinear controller, every decision vector the solver asks at, all user functions (returning or throwing at any call), all dimensions, discrete and continuous time", "why_tests_cant": "Order and arguments of all calls for all dimensions and decision vectors; tests see results only.", "anchors": ["include/mpc/NLMPC/Objective.hpp: evaluate, computeJacobian", "include/mpc/NLMPC/Constraints.hpp: evaluateIneq, evaluateEq, evaluateStateModelEq, computeIneqJacobian, computeEqJacobian, computeStateEqJacobian", "include/mpc/NLMPC/Model.hpp: getOutput"]}
{"id": "C131", "title": "User functions are shown only plans which the controller could make", "statement": "The trajectories which the user functions are called with start at the measured state and hold the input after the control horizon. Violated in the calls for derivatives: whenever the control horizon is shorter than the prediction horizon, the objective is called with an input after the control horizon moved on its own; and the model is called at step 0 with states next to the measured one, whose derivative is then not used. Proved: values are taken at the plan of the decision vector only, and objective, output and constraint functions see the measured state at step 0 in all calls.", "quantifier": "every accepted history of the nonlinear controller, every decision vector, all user functions, all dimensions", "why_tests_cant": "A statement about all calls made during an optimization.", "anchors": ["include/mpc/NLMPC/Objective.hpp: computeJacobian", "include/mpc/NLMPC/Constraints.hpp: computeStateEqJacobian, getStateEqConstraints"]}
{"id": "C132", "title": "One optimize calls user functions only as the solver asks, then for one check and one report, and ends at the first exception", "statement": "The user functions called during one optimize are, in this order: for each request of the solver the calls of that objective or constraint it has been given; if the solver answers, those of the check of the answer (output function at all steps and inequality constraints if such are set, then the equality constraints if such are set and no inequality constraint is violated); then the output function at all steps of the reported plan. Nothing is called if the solver fails, and after the search at most 2 (ph + 1) + 2 calls are made, all with exactly the plan which is reported; neither the model nor the objective is called then. If a call throws, no user function is called after it: if it belongs to the search or the check, optimize returns with status ERROR, code -1, not feasible, infinite cost and the previous command; if it belongs to the report, the exception leaves optimize. When inequality constraints are set no exception can leave, because the check calls the output function at the same points before the report.", "quantifier": "every accepted history of the nonlinear controller followed by an optimize, every sequence of requests and every answer of the solver, all user functions (returning or throwing at any call), all dimensions", "why_tests_cant": "Order and arguments of all calls during an optimization with arbitrarily many requests, and each of them as the point where an exception starts.", "anchors": ["include/mpc/NLMPC/NLOptimizer.hpp: run, nloptObjFunWrapper, nloptEqConFunWrapper, nloptUserIneqConFunWrapper, nloptUserEqConFunWrapper", "include/mpc/NLMPC/Constraints.hpp: isFeasible"]}
{"id": "C133", "title": "User functions with memory of their own cannot make the controller fault or change what it asks", "statement": "User functions may remember something and answer differently when they are asked the same again (counters, caches, random numbers, a clock). Whatever they answer, no well-formed call of the nonlinear controller faults; bounds, limits, functions and starting point the solver is given are those of a controller whose functions have no memory; which functions are called during optimize, in which order and with which states, inputs, slack and step is decided by the setters, the arguments, the solver's requests and its answer alone, except that objective and inequality constraints are shown the outputs the output function has just answered, and that the equality constraints are left out of the check when the inequality constraints were found violated; status, code, cost, command and the reported states and inputs depend on the solver's outcome only. If the answers do not depend on what is remembered (a cache, a counter, recorded data), optimize is that of the functions without memory, and exactly the calls of C132 are remembered, in order.", "quantifier": "all user functions with any memory, answering anything at every call, every well-formed history followed by an optimize, every sequence of requests and outcome of the solver, all dimensions", "why_tests_cant": "The user functions are an arbitrary process interleaved with the library: every answer at every call is arbitrary, and histories are unbounded.", "anchors": ["include/mpc/NLMPC/NLOptimizer.hpp: run, nloptObjFunWrapper, nloptEqConFunWrapper, nloptUserIneqConFunWrapper, nloptUserEqConFunWrapper", "include/mpc/NLMPC/Constraints.hpp: isFeasible, evaluateIneq, evaluateEq, evaluateStateModelEq", "include/mpc/NLMPC/Objective.hpp: evaluate"]}
{"id": "C134", "title": "User functions which remember and may throw: nothing but an exception of the reported outputs gets out, and the first exception is the last call", "statement": "User functions may remember something, answer differently when asked the same again, and throw at any call (an exception derived from std::exception), now and not the next time. Then no well-formed call of the nonlinear controller faults, and every optimize either returns or is left by an exception. The first call which throws is the last one of the optimize; the calls before it are those of an optimize in which none throws. If it is made during the search or the check of the answer, optimize returns ERROR with code -1, infinite cost, not feasible, the previous command, and zero sequences. An exception leaves optimize only if the output function throws while the outputs of the answer are computed; then the last result and the reported outputs are the old ones and the reported states and inputs those of the answer. This can happen even if inequality constraints are set, whose check has just computed the same outputs. If no call throws, optimize reports the solver's answer, or its failure. What the solver is given depends only on the calls made before and on how each of them ended. What the functions remember is exactly what the calls made, in order, leave, whether they threw or not.", "quantifier": "all user functions with any memory, answering or throwing at every call, every well-formed history followed by an optimize, every sequence of requests and outcome of the solver, all dimensions", "why_tests_cant": "The user functions are an arbitrary process interleaved with the library: any call of any function in any history may throw, depending on all the calls before.", "anchors": ["include/mpc/NLMPC/NLOptimizer.hpp: run, nloptObjFunWrapper, nloptEqConFunWrapper, nloptUserIneqConFunWrapper, nloptUserEqConFunWrapper", "include/mpc/NLMPC/Constraints.hpp: isFeasible, evaluateIneq, evaluateEq, evaluateStateModelEq", "include/mpc/NLMPC/Objective.hpp: evaluate"]}
{"id": "C135", "title": "User functions which ask their controller for its reports see those of the previous optimize, except for a half-written sequence at the end", "statement": "A user function may capture the controller which calls it and ask for its last result and its optimal sequence (it may also remember, answer differently each time and throw). Whatever it does with them, every function called during the search or during the check of the answer sees the last result and the sequence of the optimize before. The output function, called at the end for the report, sees the last result and the outputs of before, but the states and inputs of the new answer: a sequence which belongs to no answer. So a function which only asks for the last result sees the same throughout the optimize, and so does every function if there is no output function. After an optimize which returns, the last result is what it returned, and no other call changes result or sequence. The claim that every call sees the reports from before is false.", "quantifier": "all user functions with any memory, which may use the reports in any way and may throw, every well-formed history followed by an optimize, every sequence of requests and outcome of the solver, all dimensions", "why_tests_cant": "What a function sees depends on the moment at which it is called in the middle of another call, on the solver's requests and on all answers before.", "anchors": ["include/mpc/NLMPC/NLOptimizer.hpp: run", "include/mpc/IMPC.hpp: getLastResult, getOptimalSequence, optimize", "include/mpc/NLMPC/Constraints.hpp: isFeasible"]}
{"id": "C136", "title": "Controllers set up by one thread may then be used from separate threads without synchronisation", "statement": "A program constructs and configures its controllers in one thread and then starts threads, each of which uses controllers of its own. Whatever the schedule, there is no data race, the calls of every thread return and report what they would if the program set up and used the controllers of this thread only, in one thread, the controllers end in the same state, and if all these separate programs run without fault, every schedule does. A schedule which switches threads only between calls is one thread going on with the same calls in the same order. The claim about races is false twice: every message of whatever level is written through one unsynchronised logger, and a nonlinear controller and a copy the program made of it, used by different threads, share their optimizer without any message being written.", "quantifier": "all programs which set up controllers (their copies, messages and logger settings included), all programs of all threads started afterwards, all schedules", "why_tests_cant": "Whether two accesses are ordered depends on the schedule, which a test cannot choose, and on which objects the set-up has connected.", "anchors": ["include/mpc/Logger.hpp: Logger::instance, log, operator<<", "include/mpc/IMPC.hpp: setLoggerLevel, setLoggerPrefix, optPtr", "include/mpc/LMPC.hpp: LMPC", "include/mpc/NLMPC.hpp: NLMPC"]}
{"id": "C137", "title": "User functions of a nonlinear controller may use other controllers", "statement": "A cost, constraint, state or output function may capture other controllers of the program and construct, configure, ask or destroy them while its own controller is optimizing, depending on what they return. The other controllers are used exactly as the code of the functions says, one function call after the other, so that everything which holds of a controller used in an ordinary program holds of them. If the code of the functions runs without fault whenever it is called, so does the whole history. The outer controller depends on the answers of its functions only: whatever they remember or use to find them, functions which answer alike give the same tasks, results, commands, optimal sequences and calls, in particular the same as functions which compute the same answers without other controllers.", "quantifier": "all user functions which work with controllers of one class other than the one which calls them, remember, throw and read its reports; all histories of well-formed calls of the outer controller; all requests and outcomes of the solvers", "why_tests_cant": "How often and in which order the functions are called depends on the solver's requests and on the answers; a test shows some nestings.", "anchors": ["include/mpc/NLMPC/NLOptimizer.hpp: run", "include/mpc/NLMPC.hpp: setObjectiveFunction, setStateSpaceFunction", "include/mpc/IMPC.hpp: optimize, getLastResult"]}
{"id": "C138", "title": "Linear and nonlinear controllers of all sizes in one program do not influence each other", "statement": "A program constructs, configures, asks, copies, assigns and destroys linear controllers and nonlinear controllers of different dimensions in any order. Every linear controller, and every nonlinear one which is never copied or assigned, returns what it would if no other controller existed and is left in the same state, whatever is done with the others and with copies of these. The same holds when the user functions of a nonlinear controller use such a mixture of controllers.", "quantifier": "all programs over any number of controllers of both classes and of all dimensions, copies and assignments included; all user functions which use such controllers while another one is optimizing", "why_tests_cant": "Quantifies over all programs and all interleavings of steps on objects of an unbounded number of classes (NLMPC is a class template).", "anchors": ["include/mpc/IMPC.hpp: optPtr", "include/mpc/LMPC.hpp: LMPC", "include/mpc/NLMPC.hpp: NLMPC, ~NLMPC"]}
{"id": "C139", "title": "A nonlinear controller and its copies are one controller with several names", "statement": "Copy construction and assignment of a nonlinear controller give it a further name: every name shows the same results, commands and sequences (each object keeps execution statistics of its own); a call by any name acts on all of them; the controller goes through the states, and gives the answers, of a controller which is alone and receives the calls made by any of its names in the order of the program, so that everything proved about one controller holds. Other controllers, and their copies, are not concerned. A program runs without fault exactly as far as every controller alone would: in particular destroying one name ends the controller for all.", "quantifier": "all programs which construct, copy, assign, call and destroy any number of nonlinear controllers of any dimensions, and linear ones, also from within user functions of another controller", "why_tests_cant": "Quantifies over all programs and all ways in which names and controllers can be matched.", "anchors": ["include/mpc/NLMPC.hpp: NLMPC, ~NLMPC", "include/mpc/IMPC.hpp: optPtr", "include/mpc/LMPC.hpp: LMPC"]}
