#!/usr/bin/env python3
"""Writes /verif/properties.jsonl from the table below (one tuple per property)."""
import json, os
P = []
def p(title, statement, quantifier, why, anchors):
    P.append(dict(id="C%02d" % (len(P)+1), title=title, statement=statement,
                  quantifier=quantifier, why_tests_cant=why, anchors=anchors))
PB="include/mpc/LMPC/ProblemBuilder.hpp"; LO="include/mpc/LMPC/LOptimizer.hpp"; LM="include/mpc/LMPC.hpp"
NL="include/mpc/NLMPC.hpp"; NO="include/mpc/NLMPC/NLOptimizer.hpp"; CO="include/mpc/NLMPC/Constraints.hpp"
OB="include/mpc/NLMPC/Objective.hpp"; MA="include/mpc/NLMPC/Mapping.hpp"; MO="include/mpc/NLMPC/Model.hpp"
IM="include/mpc/IMPC.hpp"; PR="include/mpc/Profiler.hpp"; LG="include/mpc/Logger.hpp"; TY="include/mpc/Types.hpp"

p("Linear QP equalities encode exactly the plant dynamics",
  "For a linear MPC whose model is (A,B,C[,Bd,Dd]), a decision vector satisfies the equality rows of the QP handed to OSQP if and only if it is the trajectory with x_0 equal to the measured state, the held input before step 0 equal to the last command, u_k = u_{k-1} + du_k and x_{k+1} = A x_k + B u_k + Bd d_k for every step k of the prediction horizon.",
  "every state/input/disturbance/output dimension, every prediction horizon, every model, initial state, last command, disturbance sequence and decision vector",
  "A test fixes dimensions and one model; an index slip in the stacked Kronecker assembly shows only at other sizes or trajectories.",
  [PB+": ProblemBuilder::get, buildTimeInvariantTems, setStateModel, setExogenousInput", "docs/source/manual/manual.rst"])
p("Linear QP objective is the documented weighted tracking cost",
  "With zero output feed-through of disturbances or not, the quadratic objective of the QP, evaluated on any decision vector, equals (up to a constant that does not depend on the decision vector) one half of the sum over the horizon of the weighted squared output-reference, input-reference errors and weighted squared input increments.",
  "every dimension, horizon, model, weight matrix, reference, disturbance and decision vector",
  "The identity must hold on the whole decision space and for every size; tests compare one optimal command.",
  [PB+": get, buildTimeInvariantTems, setObjective", LM+": setObjectiveWeights, setReferences"])
p("Each input-increment reference is used at the step it is given for",
  "If setReferences is given a matrix of input-increment references, the objective penalises du_k against column k of that matrix, for every k of the prediction horizon.",
  "every horizon, every reference matrix, every step k",
  "Existing tests use constant or zero increment references, for which a shifted column is invisible.",
  [PB+": get (deltaUref use)", LM+": setReferences"])
p("State bounds hold at the steps they were set for",
  "A decision vector satisfies the state rows of the QP inequality constraints if and only if, at every step k=1..ph, the predicted state x_k lies between the min and max columns configured for that step (step index k-1 of the API), x_0 being bounded by the entry configured for index 0.",
  "every dimension, horizon, bound matrix (including infinite entries) and decision vector",
  "Step-dependent bounds over arbitrary horizons; tests use constant bounds.",
  [PB+": setStateBounds, buildTimeInvariantTems", LM+": setStateBounds"])
p("Input bounds hold at the steps they were set for",
  "A bound configured with setInputBounds for step k constrains exactly the command u_k of the predicted input sequence, for every k of the control horizon, and never constrains the already applied last command.",
  "every dimension, horizon, step-dependent bound matrix, last command and decision vector",
  "Only a non-constant bound matrix or a last command outside the bounds reveals a shift by one step.",
  [PB+": setInputBounds, buildTimeInvariantTems (eMinX/eMaxX loop)", LM+": setInputBounds"])
p("Output bounds hold for the predicted output including the disturbance",
  "A decision vector satisfies the output rows of the QP inequality constraints if and only if, at every step, C x_k plus the disturbance feed-through lies within the configured output bounds of that step.",
  "every dimension, horizon, output map, feed-through, disturbance sequence, bounds and decision vector",
  "The bound offset is recomputed from the disturbance at every call; only a universally quantified statement covers all.",
  [PB+": get (ineq_offset), setOutputBounds, buildTimeInvariantTems", LM+": setOutputBounds, setExogenousInputs"])
p("Scalar constraint relates state and input of the same step",
  "After setScalarConstraint(min,max,X,U) the QP requires min_k <= X'x_k + U'u_k <= max_k at every step k of the prediction horizon with u_k the input applied at step k, as documented.",
  "every dimension, horizon, multiplier vectors, bounds and decision vector",
  "Pairing x_k with u_{k-1} instead of u_k is indistinguishable when U is zero or inputs are constant.",
  [PB+": setScalarConstraint, buildTimeInvariantTems", LM+": setScalarConstraint"])
p("The input is frozen from the control horizon on",
  "Every decision vector feasible for the QP has u_k = u_{ch-1} for every step k >= ch, and no constraint of this kind acts on steps k < ch.",
  "every control horizon <= prediction horizon, every dimension and decision vector",
  "An off-by-one in the frozen range yields one extra free move that a closed-loop test cannot notice.",
  [PB+": buildTimeInvariantTems (lineqDU/uineqDU)"])
p("Whole-horizon input bounds are accepted for every valid pair of horizons",
  "setInputBounds with nu x ch matrices succeeds (no out-of-range access, no size mismatch) for every control horizon not larger than the prediction horizon, and bounds every step of the prediction horizon, the steps after ch by the last column.",
  "every pair ch <= ph, every dimension and matrix",
  "All tests in the repository use ch = ph or only small fixed pairs.",
  [PB+": setInputBounds", LM+": setInputBounds"])
p("Setters of the linear controller form an independent last-write-wins register file",
  "After any history of model, weight, bound, scalar-constraint and disturbance-model setter calls, the controller configuration equals, per item and per prediction step, the value of the last accepted call covering it, or the default if none; a setter never disturbs the configuration of another group.",
  "every finite sequence of setter calls in any order, every dimension and horizon",
  "There are unboundedly many call orders; tests exercise a handful.",
  [PB+": all setters", LM+": all setters"])
p("The QP matrices always reflect the latest configuration",
  "After any history of setter calls, the Hessian, constraint matrix and bounds handed to the solver at the next optimize call are those determined by the current configuration alone; no stale term from an earlier configuration survives.",
  "every finite sequence of setter calls, in any order",
  "The matrices are cached and rebuilt by the setters: staleness depends on the order of calls.",
  [PB+": buildTimeInvariantTems and its call sites, get", LO+": run"])
p("An unconfigured linear controller imposes no state, input, output or scalar limits",
  "A freshly constructed linear controller places no finite bound on states, inputs, outputs or the scalar constraint at any step; the only active restriction besides the dynamics is the control-horizon one.",
  "every dimension, every pair of horizons, every decision vector",
  "A default finite bound at a single step or size would be found only by enumerating all of them.",
  [PB+": onInit"])
p("The QP Hessian is symmetric and positive semidefinite for non-negative weights",
  "For every set of non-negative weights (in any per-step arrangement) the Hessian of the QP is symmetric and positive semidefinite, so OSQP's convexity requirement is met; storing only its upper triangle loses nothing.",
  "every dimension, horizon, model and non-negative weights",
  "Convexity is a statement about all directions of the decision space.",
  [PB+": buildTimeInvariantTems, getSparse"])
p("The sparse conversion handed to OSQP is lossless and well formed",
  "The compressed-column copy of a matrix handed to OSQP has monotone column pointers starting at 0 and ending at the number of non-zeros, row indices in range, strictly increasing inside each column, and decodes back to exactly the original matrix (its upper triangle for the Hessian).",
  "every matrix of every size",
  "Round trip over all matrices.",
  [LO+": createOsqpSparseMatrix", PB+": getSparse"])
p("A slice setter changes exactly the steps in [start,end)",
  "When a slice overload (bounds, weights, references, disturbances) accepts a slice with 0 <= start, exactly the steps start..end-1 take the new value and every other step keeps its previous one; when it returns false the configuration is unchanged; the unset slice {-1,-1} covers the entire horizon.",
  "every slice, every previous configuration, every horizon",
  "The set of slices and previous histories is unbounded.",
  [LM+": slice overloads", IM+": isPredictionHorizonSliceValid, isControlHorizonSliceValid, isSliceUnset", TY+": HorizonSlice"])
p("Every non-empty slice inside the horizon is accepted and every other one is rejected",
  "A slice {start,end} is accepted if and only if it is {-1,-1} or satisfies 0 <= start < end <= horizon.",
  "every pair of 32-bit integers and every horizon",
  "Acceptance is a predicate over all integer pairs.",
  [IM+": isPredictionHorizonSliceValid, isControlHorizonSliceValid"])
p("Disturbance sequences can be set on any slice of the prediction horizon",
  "setExogenousInputs with a slice accepts the same slices as the other prediction-horizon setters whatever the control horizon is.",
  "every pair of horizons and every slice",
  "A validation against the wrong horizon is visible only when ch < ph and the slice exceeds ch.",
  [LM+": setExogenousInputs(vector, slice)"])
p("The reported optimal sequence is the solver's solution and obeys the plant model",
  "After a solved optimize call, the returned state/input sequences are read from the solver's primal vector so that, whenever that vector satisfies the QP equalities, row k+1 of the states is A x_k + B u_k + Bd d_k, row 0 is the measured state, the last input row repeats the previous one, the outputs are C x_k plus feed-through, and the returned command is row 0 of the input sequence.",
  "every solver answer, dimension, horizon, model and disturbance",
  "Index arithmetic of the extraction must be right at every size and step.",
  [LO+": run", IM+": getOptimalSequence, optimize"])
p("When the linear solver fails, the controller keeps the last successful command",
  "After any history of optimize calls, when the solver returns no solution the command returned equals the command of the most recent call that returned a solution (zero if none), the result is flagged infeasible with status ERROR and infinite cost, and the optimal sequence is all zero.",
  "every finite history of solver answers",
  "The claim is about unbounded histories of failures and successes.",
  [LO+": run (failure branch)", IM+": optimize, getLastResult"])
p("A linear SUCCESS status is only reported for a feasible solution",
  "If optimize reports status SUCCESS, the result is flagged feasible, for every solver return code.",
  "every solver status code",
  "Rare solver codes (inaccurate infeasibility certificates) hardly ever occur in tests.",
  [LO+": run, convertToResultStatus", TY+": ResultStatus"])
p("Warm start hands the solver the previous primal and dual solution",
  "With warm start enabled, the solver is warm-started at each call with exactly the primal and dual vectors of the most recent solution (of sizes number of variables and number of constraints) or those last set by the user; without a previous solution or with warm start disabled, no warm start takes place.",
  "every history of optimize calls, solver answers and warm-start setter calls",
  "History dependent.",
  [LO+": run, setWarmStart getters/setters", LM+": getWarmStartPrimal/Dual, setWarmStart"])
p("Consistent bounds always pass the solver's validation, inconsistent ones are not silently ignored",
  "If every configured lower bound is <= its upper bound, the bounds given to OSQP satisfy l <= u row by row for every disturbance, and conversely; when OSQP rejects the problem (l > u), optimize reports an error rather than using an unset workspace.",
  "every configuration and disturbance",
  "Universal over bounds and disturbances.",
  [PB+": get", LO+": run (osqp_setup)"])
p("Problem construction has no memory",
  "Asking for the QP with given measured state, last command, disturbances and references gives a result that depends only on those arguments and the configuration: no earlier optimize call can change it.",
  "every history of earlier calls and arguments",
  "The builder overwrites persistent vectors; stale entries depend on the history.",
  [PB+": get"])
p("Solver memory of the linear controller is freed exactly once",
  "Over any number of optimize calls every OSQP allocation made by a call is released exactly once before the next one, and destroying the optimizer releases nothing twice.",
  "every history of optimize calls followed by destruction",
  "Allocation histories are unbounded and double frees may pass unnoticed.",
  [LO+": ~LOptimizer, run, clearData, initData, createOsqpSparseMatrix"])
p("Profiler counters, total, average, minimum and maximum are exact",
  "After any sequence of recorded solutions the number of solutions, total time, average time, minimum and maximum equal those of the recorded durations.",
  "every finite sequence of (duration, status)",
  "Running formulas must be right for every sequence.",
  [PR+": solutionEnd, addSolutionTime"])
p("Profiler standard deviation is the sample standard deviation",
  "After any sequence of n >= 2 recorded solutions the reported standard deviation equals the sample standard deviation (n-1 normalisation) of the durations.",
  "every finite sequence of durations",
  "An integer division error inside a running update shows only for n >= 3.",
  [PR+": addSolutionTime"])
p("Profiler status histogram is exact and percentages add to one hundred",
  "The count shown for every status equals the number of recorded solutions with that status, counts add up to the number of solutions and the printed percentages to one hundred.",
  "every finite sequence of statuses",
  "Universal over sequences.",
  [PR+": solutionEnd, operator<<"])
p("resetStats makes the statistics as new",
  "After resetStats the statistics evolve exactly as those of a new controller, whatever was recorded before.",
  "every two finite sequences (before and after the reset)",
  "A single field left uncleared shows only after particular histories.",
  [PR+": reset, clear", IM+": resetStats"])
p("Log filtering emits exactly the messages at or above the configured level",
  "For any history of log calls and level/prefix changes, what is written to the stream is exactly the concatenation of the pieces whose message type is at or above the level in force when each piece is streamed, each log call of visible type being preceded by the [MPC++ prefix] tag; with level NONE nothing is written.",
  "every finite history of logger operations",
  "History dependent state machine.",
  [LG+": log, operator<<, setLevel, setPrefix, reset"])
p("Logger reset restores prefix and level only",
  "reset restores the empty prefix and NORMAL level, keeps stream and already written text, and is idempotent.",
  "every logger state",
  "Universal over states.",
  [LG+": reset"])
p("Dimension arithmetic is integer arithmetic and is static exactly when both operands are",
  "For all sizes, sum, difference and product of two sizes (and of a size and an integer on either side) have the arithmetic value of the C++ expression written, and the result is static iff both operands are.",
  "every pair of integers / sizes",
  "Universal over integers.",
  ["include/mpc/Dim.hpp: Size operators", TY+": make_dimension"])
p("Multi-step Runge-Kutta integration composes",
  "Integrating with n sub-steps equals n single-step integrations, each started at the time where the previous one ended; zero sub-steps return the initial state.",
  "every vector field, state, input, step and number of sub-steps",
  "Universal over vector fields and counts.",
  ["include/mpc/Integrator.hpp: RK4::run"])
p("Runge-Kutta step is exact on cubic-in-time and matches the degree-4 Taylor step on linear systems",
  "One step integrates a state-independent cubic polynomial right-hand side exactly, and on x' = A x gives (I + hA + (hA)^2/2 + (hA)^3/6 + (hA)^4/24) x.",
  "every polynomial, matrix, state and step",
  "A wrong coefficient may stay within a numerical tolerance.",
  ["include/mpc/Integrator.hpp: RK4::run"])
p("Discretization is the exact zero-order-hold sampling",
  "The pair returned by discretization maps x(0) and a constant input to the value at time Ts of the solution of x' = A x + B u (and of x' = A x + B u + Be d in the disturbance variant); discretizing at Ts1+Ts2 is the composition of both.",
  "every system, sampling time, state and input",
  "A statement about all real matrices and a differential equation.",
  ["include/mpc/Utils.hpp: discretization"])
p("Move blocking expands the nonlinear decision vector as documented",
  "The input used at step k of the prediction horizon is the (scaled) decision input of step min(k, ch-1), the row after the horizon repeats the last one, for every decision vector; the first state row is the measured state and the following ones the (scaled) decision states.",
  "every pair of horizons ch <= ph, dimension, scaling and decision vector",
  "Index maps over all sizes; scaling is 1 in the tests.",
  [MA+": unwrapVector, computeMapping"])
p("Compressing an expanded input sequence gives back the decision inputs",
  "For every non-zero input scaling and every ch <= ph, compressing after expanding is the identity on decision inputs, and expanding after compressing is the identity on sequences constant from ch-1 on.",
  "every dimension, horizon and scaling",
  "Universal over sizes.",
  [MA+": computeMapping"])
p("Nonlinear equality constraints vanish exactly on trajectories of the model",
  "The state-equation residual is zero if and only if, at every step, x_{k+1} = f(x_k,u_k) (discrete model) or x_{k+1} = x_k + Ts/2 (f(x_k,u_k) + f(x_{k+1},u_k)) (continuous model), whatever the state scaling.",
  "every vector field, dimension, horizon, non-zero scaling and trajectory",
  "Universal over vector fields and trajectories.",
  [CO+": evaluateStateModelEq, getStateEqConstraints"])
p("The gradient of the dynamics constraints given to the solver is exact for affine models",
  "For every affine model, discrete or continuous, the Jacobian of the state-equation constraints handed to the solver equals the true derivative of the residual with respect to the decision vector.",
  "every affine model, dimension, pair of horizons, scaling and point",
  "A misplaced block shows only at certain sizes and horizons.",
  [CO+": getStateEqConstraints, computeStateEqJacobian, evaluateStateModelEq, glueJacobian"])
p("The objective gradient given to the solver is exact for affine objectives",
  "For every affine objective the gradient handed to the solver equals the derivative of the objective as a function of the decision vector.",
  "every affine objective, dimension, horizons, scaling and point",
  "Misplaced or unscaled entries are hidden by solver robustness.",
  [OB+": evaluate, computeJacobian"])
p("The gradient of user inequality constraints is exact for affine constraints",
  "For every affine user inequality constraint the Jacobian handed to the solver equals its derivative with respect to the decision vector.",
  "every affine constraint, dimension, horizons and point",
  "A missed row contribution only slows or biases the solver.",
  [CO+": evaluateIneq, computeIneqJacobian"])
p("The gradient of user equality constraints is exact for affine constraints",
  "For every affine user equality constraint the Jacobian handed to the solver equals its derivative with respect to the decision vector.",
  "every affine constraint, dimension, horizons and point",
  "As above.",
  [CO+": evaluateEq, computeEqJacobian"])
p("Predicted outputs are the user's output map at every step",
  "The output sequence has in row k the user's output function of row k of states and inputs with step index k, and is zero when no output function was set; the result does not depend on earlier evaluations.",
  "every output function that writes its whole argument, trajectory, dimension and horizon",
  "Universal over functions.",
  [MO+": getOutput"])
p("A nonlinear result is flagged feasible exactly when the user's constraints hold within tolerance",
  "The feasibility flag is true if and only if every user inequality value is at most its tolerance and every user equality value is at most its tolerance in absolute value (a non-number counts as violated).",
  "every user constraint functions, tolerances and decision vector",
  "Universal over functions and values including NaN.",
  [CO+": isFeasible", NO+": run"])
p("Box bounds of the nonlinear controller act on exactly the addressed decision variables",
  "Setting state or input bounds for a slice changes the solver box of exactly the decision variables of those steps; all other variables, in particular the slack, keep their bounds; bounds accumulate last-write-wins over any history.",
  "every history of bound setters, dimension and horizons",
  "Index layout over all sizes and histories.",
  [NO+": setStateBounds, setInputBounds", NL+": setStateBounds, setInputBounds"])
p("Soft constraints can be switched on and off",
  "After setOptimizerParameters with hard_constraints = true the slack variable is fixed at zero; with hard_constraints = false the slack is free to be positive, whatever parameters were set before.",
  "every finite history of parameter calls",
  "History dependent.",
  [NO+": setParameters, onInit"])
p("The latest optimizer parameters are the ones in force",
  "After any sequence of setOptimizerParameters calls, the limits used by the solver (including the time limit) are those of the last call.",
  "every finite history of parameter calls",
  "Stickiness depends on an earlier call.",
  [NO+": setParameters"])
p("The initial guess of the nonlinear solver is as documented",
  "The first (or non-warm-started) call starts the solver from the measured state and last input at each step; a warm-started call starts from the previous solution shifted by one step with the last state and input repeated.",
  "every history, dimension, horizons and previous solution",
  "Index shifting for all sizes and histories.",
  [NO+": run"])
p("When the nonlinear solver fails, the controller keeps the last command",
  "After any history, when the solver throws, the returned command is that of the last successful call (zero if none), flagged infeasible with status ERROR; a later call behaves as if the failed one had not happened with respect to its starting point.",
  "every finite history of solver outcomes",
  "Histories are unbounded.",
  [NO+": run"])
p("Setting a model or constraint replaces the previous one and reports failure",
  "Calling a set*Function again replaces the previous function; the problem given to the solver holds one copy of each constraint group, and the setter returns true only if the solver accepted the constraint.",
  "every finite history of setter calls",
  "History dependent.",
  [NL+": setStateSpaceFunction, setObjectiveFunction, setIneqConFunction, setEqConFunction", NO+": bind*"])
p("Unsupported setters always fail loudly and change nothing",
  "Calling a setter which the controller does not support throws and leaves the configuration unchanged, for every argument and at any point of a history.",
  "every history and argument",
  "Universal over histories.",
  [LM+": setDiscretizationSamplingTime, setInputScale, setStateScale", NL+": setOutputBounds"])
p("Numerical differentiation leaves the trajectory it perturbs unchanged",
  "After computing any gradient, the trajectory used for it is exactly the one before the computation, so the value and later gradients are unaffected.",
  "every function, trajectory, dimension",
  "Must hold after each of unboundedly many perturbations.",
  [OB+": computeJacobian", CO+": computeIneqJacobian, computeEqJacobian, computeStateEqJacobian"])
p("Using a component before initialisation is refused",
  "Every operation that needs dimensions terminates the program with an error instead of computing when the component was not initialised, and initialisation happens at most with valid positive horizons and non-negative dimensions.",
  "every operation and every dimension tuple",
  "Universal over operations.",
  ["include/mpc/IComponent.hpp: checkOrQuit", "include/mpc/IDimensionable.hpp: setDimension"])
p("Nonlinear evaluations do not depend on what was evaluated before",
  "The value and gradient returned to the solver for a decision vector depend only on that vector, the measured state and the configuration, not on the earlier evaluations (for user functions which write their whole output).",
  "every sequence of earlier evaluations",
  "Persistent buffers could leak between calls.",
  [OB+": evaluate", CO+": evaluateIneq, evaluateEq, evaluateStateModelEq, isFeasible"])
p("Solver return codes map to one documented result status each",
  "Every return code of OSQP and NLopt gives the documented ResultStatus; success codes give SUCCESS, limits MAX_ITERATION, infeasibility INFEASIBLE, the other failures ERROR, and unsolved or a number which is no code UNKNOWN.",
  "every integer return code",
  "Universal over codes.",
  [LO+": convertToResultStatus", NO+": convertToResultStatus"])
p("The output of step k contains the disturbance of step k",
  "As documented, the predicted output of step k that the objective tracks and the output limits bound is C x_k + Dd d_k, with d_k the disturbance configured for step k.",
  "every linear model, disturbance sequence, history of setter calls and decision vector",
  "Universal over steps, sequences and decision vectors; tests with constant disturbances cannot see the index.",
  [PB+": get", LO+": run"])
p("The last result and optimal sequence of the linear controller persist until the next optimize",
  "getLastResult returns the result of the most recent optimize call (a zero command, not feasible, UNKNOWN before the first), and no setter changes it or the optimal sequence.",
  "every history of API calls of any length",
  "Universal over histories.",
  ["include/mpc/IMPC.hpp: getLastResult, getOptimalSequence, optimize", LO+": run"])
p("No well-sized history of calls on the linear controller reaches undefined behaviour",
  "For every valid dimensions and every history of public calls whose arguments have the documented sizes, no out-of-range access, size mismatch, null or dangling pointer use or double release happens.",
  "every history of API calls with well-sized arguments, every solver outcome",
  "Undefined behaviour may go unnoticed in a run, and histories are unbounded.",
  ["include/mpc/LMPC.hpp", LO+": run, clearData", PB])
p("The nonlinear controller reports the solver's solution",
  "After a solved optimize, the command is the first input of the solver's vector, the state, output and input sequences are those of the vector (states starting at the measured state), the result persists until the next optimize and no setter changes it.",
  "every history of API calls and every solver answer",
  "Universal over histories and solver vectors.",
  [NO+": run", NL+": optimize", "include/mpc/IMPC.hpp: getLastResult, getOptimalSequence"])
p("No well-formed history of calls on the nonlinear controller reaches undefined behaviour",
  "For all valid dimensions and every history of public calls with arguments of the documented sizes, no out-of-range access, size mismatch, null or dangling pointer use, failed assertion or exception happens, except the documented exceptions of unsupported calls.",
  "every history of API calls with well-formed arguments, every solver outcome, every user function",
  "Undefined behaviour may go unnoticed in a run, and histories are unbounded.",
  [NL, NO, OB, CO, "include/mpc/NLMPC/Mapping.hpp"])
p("Static and dynamic dimensions behave alike",
  "A nonlinear controller built with compile-time sizes and one built with the same sizes at run time answer every history of calls identically.",
  "every history of API calls, every dimension tuple",
  "Two programs must agree on all histories.",
  [NL+": setEqConFunction", "include/mpc/Dim.hpp", "include/mpc/IDimensionable.hpp"])
p("A controller can be built for every dimensions setDimension accepts",
  "For all non-negative sizes and positive horizons the construction of the controller succeeds.",
  "every dimension tuple accepted by setDimension",
  "Universal over dimension tuples.",
  ["include/mpc/NLMPC/Mapping.hpp: computeMapping", "include/mpc/IDimensionable.hpp: setDimension"])
p("Execution statistics are about exactly the results optimize returned",
  "After any history of calls on a controller, getExecutionStats describes exactly the optimize calls that returned a result since the last reset: their number, total, mean, shortest and longest duration, and the number per status; other calls do not change it, and keeping statistics changes nothing else.",
  "every history of API calls on either controller, every solver outcome, every clock",
  "Histories are unbounded and interleave statistics with all other calls.",
  ["include/mpc/IMPC.hpp: optimize, getExecutionStats, resetStats", "include/mpc/Profiler.hpp"])
p("With an exact QP solver the linear controller returns the first command of a best plan",
  "If OSQP hands back an exact solution of its problem, the returned command is the first one of a command sequence which satisfies the configured bounds, scalar constraints and control horizon along the simulated plant, and has the least tracking cost of all such sequences.",
  "every configuration history, measured state, last command and horizon",
  "Optimality quantifies over all plans, and the configuration over all histories.",
  [LM+": optimize", LO+": run", PB+": get"])
p("Bounds of the nonlinear controller limit the physical inputs and states",
  "When the solver answers within the box it was given, the returned command lies within the input bounds set last for the first step and the reported states within the state bounds set last for their steps.",
  "every history of API calls, including scaling factors, and every solver answer within its box",
  "Universal over histories and solver vectors; scaling is 1 in the tests.",
  [NL+": setInputBounds, setStateBounds, setInputScale, setStateScale", NO+": run"])
p("With an exact solver the nonlinear controller returns the first input of a best plan",
  "If NLopt answers with an exact solution of its problem, the returned command is the first input of a plan which starts at the measured state, satisfies the model, the user constraints (within tolerance), the bounds and the control horizon, and minimises the user's objective among all such plans.",
  "every configuration history with hard constraints and each function set once, every user functions, measured state and horizons",
  "Optimality quantifies over all plans, and the configuration over all histories.",
  [NL+": optimize", NO+": run", OB+": evaluate", CO+": evaluateIneq, evaluateEq, evaluateStateModelEq", "include/mpc/NLMPC/Mapping.hpp: unwrapVector"])
p("The linear result is flagged feasible exactly for usable solver outcomes",
  "After any history, the result of optimize is flagged feasible if and only if OSQP handed back vectors with code solved, solved inaccurately or iteration limit reached, and then reports the solver's code and cost; results with status INFEASIBLE, ERROR or UNKNOWN are never flagged feasible.",
  "every history of API calls, every integer solver code, every solver answer",
  "Universal over codes and histories.",
  [LO+": run, convertToResultStatus"])
p("Difference quotient steps follow the magnitude of their own variable",
  "Every gradient entry which the nonlinear controller hands to the solver is a difference quotient whose step is a fixed small number times the magnitude (at least one) of the very variable that is perturbed: the state or input component at that step of the horizon.",
  "every history of API calls, every user function, every decision vector, every entry of every gradient",
  "A unit test checks a gradient at a few points of small magnitude, where all steps coincide; which variable sets the step shows only at points with entries of different magnitudes.",
  [OB+": computeJacobian", CO+": computeIneqJacobian, computeEqJacobian, computeStateEqJacobian"])
p("Gradient accuracy for smooth user functions",
  "Inside optimize, for user functions (objective, inequality and equality constraints, model) with an L-Lipschitz derivative, the value handed to the solver is that of the user function on the trajectory of the decision vector, and every gradient entry differs from the true partial derivative of that function of the decision vector by at most a constant (horizon, scaling, sampling time) times L times step times the magnitude of the trajectory.",
  "every history of API calls, every smooth user function, every decision vector",
  "Quantifies over all smooth functions and all points; a test can only compare a few derivatives within a tolerance.",
  [OB+": computeJacobian, evaluate", CO+": evaluateIneq, evaluateEq, evaluateStateModelEq"])
p("The exact linear command is unique and independent of the history",
  "With non-negative weights and a positive weight on every command or on its increment, the problem optimize poses has at most one solution; so two controllers whose histories leave the same configuration and which are asked about the same state with the same last command return the same command and sequences when OSQP solves both problems exactly, whatever happened to them before (earlier answers, warm starts, parameters).",
  "every pair of histories of API calls leaving the same configuration, every state, last command and horizons",
  "Uniqueness quantifies over all decision vectors, independence over all pairs of histories.",
  [LM+": optimize", LO+": run", PB+": get, getObjective"])
p("At rest at the target the linear controller keeps the command",
  "If holding the last command keeps the measured state, all limits hold there, every weighted output and command is at its reference and the increment references are zero, then (exact solver, non-negative weights, every command or increment weighted) optimize returns the last command and the reported sequences are constant; such a rest is always a solution of the problem posed.",
  "every plant, configuration, equilibrium, disturbance and horizons",
  "Quantifies over all equilibria of all plants.",
  [LM+": optimize", PB+": get"])
p("Only the proportion of the weights matters",
  "Multiplying all weights by one positive factor does not change which plans are optimal for the problem optimize poses.",
  "every configuration history, positive factor, state and last command",
  "Quantifies over all configurations and all plans.",
  [LM+": setObjectiveWeights, optimize", PB+": setObjective, get"])
p("The reported linear cost is the documented cost of the reported sequence",
  "When OSQP solves exactly and reports the objective of its solution, the cost in the result is the documented tracking cost of the reported sequence, in some fixed unit.",
  "every configuration history, state, last command and exact answer",
  "Quantifies over all configurations and states.",
  [LM+": optimize", LO+": run", "include/mpc/Types.hpp: Result", "docs/source/manual/manual.rst: cost"])
p("Relaxing limits never makes the linear problem harder",
  "If one configuration differs from another in looser limits only, every vector allowed by the problem posed before is allowed after, and with exact solutions the tracking cost of the reported plan does not rise.",
  "every pair of configuration histories with looser limits, every state and last command",
  "Quantifies over pairs of configurations and all decision vectors.",
  [LM+": setStateBounds, setInputBounds, setOutputBounds, setScalarConstraint, optimize", PB+": get"])
p("Controllers in one program do not influence each other",
  "In a program with any number of controllers, constructed, called and destroyed in any order, every controller returns what it would return if the others did not exist; a copy of a controller is such a controller of its own.",
  "every program that constructs, copies, assigns, calls and destroys controllers, every interleaving of the calls",
  "Quantifies over all programs with several controllers and all interleavings.",
  ["include/mpc/IMPC.hpp: optPtr", LM+": LMPC, onSetup, builder", NL+": NLMPC, ~NLMPC, onSetup, buildInternalModules", PB+": Problem"])
p("Destroying controllers releases their memory exactly once",
  "In every program, destroying a live controller never releases memory twice, and when no controller is left, none of the memory they allocated is left.",
  "every program that constructs, copies, assigns, calls and destroys controllers",
  "Quantifies over all programs; a test covers the programs it runs.",
  [LM+": ~LMPC, onSetup", NL+": ~NLMPC, onSetup", "include/mpc/IMPC.hpp: optPtr"])
p("The linear controller does not depend on the unit of its signals",
  "Multiplying the start, the last command, all references, all disturbances and all limits by one nonzero factor (a negative one exchanges lower and upper limits) multiplies the solutions of the problem handed to the solver, the returned command and the reported sequences by that factor; in particular the mirrored problem gets the mirrored command.",
  "every configuration, every factor other than zero, every start, every exact answer of the solver",
  "Quantifies over all configurations, factors and solutions.",
  [PB+": build, buildObj", LM+": setStateSpaceModel, setReferences, setStateBounds, setInputBounds, setOutputBounds", LO+": run"])
p("The linear controller depends on the model only through its response",
  "Two models of possibly different order, related by a map of the states under which they respond alike to every command and disturbance, get the same command and the same command sequence, provided no state is limited: changing the state coordinates, or adding states without influence, changes nothing.",
  "every pair of configurations related by a linear map of states, every start",
  "Quantifies over all models, orders and maps.",
  [PB+": build", LM+": setStateSpaceModel", LO+": run"])
p("In closed loop the plant follows the reported first step",
  "If the plant behaves like the model and the solver is exact, then in every step of every closed loop the state reached next is the second row of the reported state sequence, it and the output computed from it satisfy the limits configured for the first step.",
  "every configuration, every number of steps, every loop of optimize calls",
  "Quantifies over loops of any length; a simulation covers one.",
  [LM+": getOptimalSequence", "include/mpc/IMPC.hpp: optimize", LO+": run", PB+": build"])
p("A closed loop at rest stays at rest",
  "If the plant behaves like the model, the solver is exact, the weights are nonnegative and every command is weighted, a closed loop which starts at rest at its target keeps state and command in all steps.",
  "every configuration with a resting start, every number of steps",
  "Quantifies over loops of any length and all equilibria.",
  ["include/mpc/IMPC.hpp: optimize", LO+": run", PB+": build, buildObj"])
p("The solver reads the values and gradients of the functions set",
  "Inside every optimize, after any sequence of callbacks, each callback of the objective or of a constraint runs without writing outside the memory the solver provides, returns the value of the function set last (objective, inequality, equality, model defects) and, if a gradient is requested, fills all of it, in the solver's layout, with difference quotients of that function.",
  "every history of calls, every sequence of callbacks, every decision vector, every former content of the memory",
  "Quantifies over histories, callbacks and decision vectors, and over memory contents a test cannot control.",
  [NO+": nloptObjFunWrapper, nloptEqConFunWrapper, nloptUserIneqConFunWrapper, nloptUserEqConFunWrapper, bind, bindEq, bindUserIneq, bindUserEq", CO+": evaluateIneq, evaluateEq, evaluateStateModelEq", OB+": evaluate"])
p("Without limits the linear controller obeys superposition",
  "For linear controllers with the same model and weights and no limits: if the measured state, last command, references and disturbances of a third call are a linear combination of those of two other calls, the same combination of solutions of the first two problems handed to OSQP solves the third, and with exact answers and a positive weight on every command or its increment the returned command and reported sequences are that combination of theirs.",
  "every model, every non-negative weights, every signals, every factors, every histories leading there",
  "Quantifies over all states, references, disturbances, models and histories.",
  [LO+": run", PB+": buildTITerms, buildTVTerms, get", LM+": setReferences, setExogenousInputs, optimize"])
p("Without limits the linear controller is solvable and is one linear law",
  "For every model and non-negative weights with a positive weight on every command or its increment, and without limits, the problem handed to OSQP always has a solution, and there is one linear function of measured state, last command, references and disturbances which gives the inputs of the reported sequence and the command of every exactly answered call of every history with this model and these weights.",
  "every model, every such weights, every horizons, every signals, every history",
  "An existence statement for every model; the law has to hold for all states, references and disturbances.",
  [LO+": run", PB+": buildTITerms, buildTVTerms, get", LM+": setReferences, setExogenousInputs, optimize"])
p("The linear and the nonlinear controller agree on the same task",
  "Set up a nonlinear controller with user functions for the plant, the tracking cost and the limits on states and commands configured on a linear controller, with the control horizon equal to the prediction horizon. Asked about the same measured state after the same command, both return the same command and report the same sequences of states and inputs, provided OSQP and NLopt answer exactly and every command or its increment has a positive weight.",
  "every plant, every non-negative weights that determine the commands, every references, disturbances, limits, every histories leading there",
  "Compares two different problem encodings for all tasks, states and histories.",
  [LO+": run", PB+": get", NO+": run", "include/mpc/NLMPC/Constraints.hpp", "include/mpc/NLMPC/Objective.hpp", "include/mpc/NLMPC/Mapping.hpp"])
p("A residual of the QP solver is an error of the same size in physical units",
  "If OSQP's answer satisfies every row of its problem up to a residual eps, the reported states, inputs and outputs respect their limits up to eps, the sequence starts within eps of the measured state and follows the plant up to (1+beta)*eps per step, and a plant driven by the reported inputs stays within an explicit bound (growing with the row sums of A and B) of the reported states and of the limits. Conversely a vector with these physical errors has residual at most eps.",
  "every plant, every limits, every residual, every answer, every history",
  "Quantifies over all answers with a residual, all plants and all horizons.",
  [PB+": buildTITerms, buildTVTerms, get", LO+": run"])
p("A nearly optimal answer gives a nearly optimal command",
  "If OSQP's answer is feasible and its cost at most eps above the least, the returned command differs from the exact one by at most the square root of 4*eps divided by the sum of the weights on that command and its increment; the same holds for every reported input and output in its weight.",
  "every plant, every non-negative weights, every limits, every eps, every answers, every histories",
  "Quantifies over all nearly optimal answers and all configurations.",
  [PB+": buildTITerms, get", LO+": run"])
p("A linear closed loop that once finds a plan keeps finding one",
  "When the limits do not get looser along the horizon, the announced disturbance is constant, the limits of the last step can be kept one step longer (for instance because they pin the state to an equilibrium that respects all limits) and OSQP solves every problem that can be satisfied, then a satisfiable first problem is enough: every later problem of the closed loop can be satisfied and is solved, and the plant and its commands respect the limits of the first step for ever.",
  "every plant, every limits with these properties, every start, every number of steps",
  "Quantifies over all closed loops of unbounded length; tests run finitely many steps of finitely many plants.",
  [PB+": buildTITerms, get", LO+": run", LM+": setStateBounds", "include/mpc/IMPC.hpp: optimize"])
p("What a linear closed loop costs is at most what its first plan costs, and weighted signals converge",
  "When moreover the weights do not decrease along the horizon, references are constant and the last step can be prolonged at no cost, the sum of the costs of the steps the closed loop really takes, over any number of steps, is at most the cost of any plan allowed by the first problem; in a loop that goes on for ever every output and every command with a positive weight approaches its reference.",
  "every plant, every weights and references with these properties, every number of steps",
  "Quantifies over all closed loops, and speaks about their limit.",
  [PB+": buildTITerms, get", LO+": run", LM+": setObjectiveWeights, setReferences", "include/mpc/IMPC.hpp: optimize"])
p("An exception of a user function during a search is a failed optimisation and leaves nothing else behind",
  "If a function of the user of the nonlinear controller throws while NLopt searches, or while the feasibility of its answer is checked, optimize still returns: status ERROR, code -1, not feasible, infinite cost, the last command, a sequence of zeros. Evaluations left half way have no influence on anything later: two histories with the same calls, arguments and endings of the solver return the same from every call, give the solver the same settings, initial points, function values and gradients, whichever callbacks were made or left by exceptions; and nothing is read or written out of bounds.",
  "every history of calls, every placement of exceptions in callbacks and checks, every contents left behind by an interrupted evaluation",
  "An exception can leave an evaluation at any point, after any history, with anything in the working arrays.",
  [NO+": run, nloptObjFunWrapper, nloptEqConFunWrapper, nloptUserIneqConFunWrapper, nloptUserEqConFunWrapper", OB+": evaluate", CO+": evaluateStateModelEq, evaluateIneq, evaluateEq, isFeasible"])
p("If optimize leaves with an exception, the last result and the optimal sequence are the old ones",
  "When optimize itself throws because the output function of the user does, getLastResult and getOptimalSequence return what they returned before the call.",
  "every history of calls, every call left by an exception",
  "Quantifies over all histories; the exception must come after the solver has answered.",
  [NO+": run", "include/mpc/IMPC.hpp: optimize"])
p("A refused call explains itself in the log",
  "Every API call which returns false or throws leaves exactly one error message in the log, which says what did not fit; calls which succeed leave none. At level NORMAL and ALERT the line appears, with its tag, in the stream in force and in no other.",
  "every program with any number of controllers, every call in every state, every level, prefix and stream",
  "Quantifies over all programs, all arguments and all log settings; the messages come from many places in the code.",
  ["include/mpc/IMPC.hpp: isPredictionHorizonSliceValid, isControlHorizonSliceValid", "include/mpc/Logger.hpp: log, operator<<", LM+": setScalarConstraint, setInputScale, setStateScale", NL+": setOutputBounds, setStateSpaceFunction", NO+": bindEq"])
p("Log settings belong to the controller they are set on, and logging never changes a result",
  "setLoggerLevel and setLoggerPrefix of a controller decide how the messages of that controller look, and of no other. Whatever is logged, and however, every call returns what it would return without logging; at level NONE nothing is written; a program which runs without logging runs with it as long as the stream is not null.",
  "every program with any number of controllers, every interleaving of settings and calls",
  "Quantifies over all interleavings of calls on several controllers.",
  ["include/mpc/IMPC.hpp: setLoggerLevel, setLoggerPrefix", "include/mpc/Logger.hpp: instance, setLevel, setPrefix, setStream, reset"])
p("The log reports every optimize truthfully",
  "Each optimize leaves exactly one report of type INFO, and its lines give the duration, the status and the code of the solver, the feasibility, the status message and the cost of the very result which the call returns; the status message is empty unless the solver failed with an exception, and then gives the reason. A failed optimize also leaves an error message, so that it shows at level ALERT.",
  "every program, every call of optimize, every behaviour of the solver, every level, prefix and stream",
  "Quantifies over all programs and everything the solver can answer.",
  ["include/mpc/IMPC.hpp: optimize", LO+": run", NO+": run", "include/mpc/Logger.hpp: log, operator<<"])
p("The states reported by the nonlinear controller are a simulation of the model",
  "With a discrete model of tolerance tol (unit state scaling) and a solver answer which satisfies the problem it was given, the state which the plant reaches with the returned command, if it behaves like the model, differs from the reported state of the first step by at most tol; over the horizon the reported states differ from the simulation with the reported inputs by at most tol (1 + L + ... + L^(k-1)), L being the Lipschitz constant of the model; with tolerance zero they are that simulation.",
  "every history of calls, every model, every usable answer of the solver, every horizon",
  "Quantifies over all user models and solver answers; the error accumulates along the horizon.",
  [NL+": setStateSpaceFunction, optimize", NO+": run, bindEq", CO+": getStateEqConstraints"])
p("A nonlinear closed loop that once finds a plan keeps finding one",
  "If the plant behaves like the configured discrete model, limits do not get looser along the horizon, the user constraints are constraints on each step and on the last state, and from each state allowed at the end an allowed input leads to another one, then, with a solver which answers every problem that can be satisfied, one satisfiable problem at the start is enough: every later problem of the loop can be satisfied; commands and plant states respect the limits of the first step and the constraints of a step, and the plant goes where the controller said.",
  "every configuration of this kind, every number of steps of the loop, every such solver (its answers need not be optimal)",
  "Quantifies over loops of any length, with the whole history of the controller in every step.",
  [NL+": optimize, setIneqConFunction, setEqConFunction", NO+": run", CO+": evaluateIneq, evaluateEq, evaluateStateModelEq"])
p("What a nonlinear closed loop costs is at most what its first plan costs, and the cost of a step becomes small",
  "If moreover the objective is the sum of nonnegative costs of the steps and a terminal cost which pays for staying in the terminal set, the sum of the costs of the steps made by the closed loop is at most the cost of any plan allowed at the start, plus the accuracy of the solver for every step; with exact answers the cost of a step tends to zero.",
  "every configuration of this kind, every number of steps, every accuracy of the solver",
  "Quantifies over loops of any length; convergence is a statement about infinite runs.",
  [NL+": optimize, setObjectiveFunction", NO+": run", OB+": evaluate"])
p("Relaxing limits, tolerances or constraints never makes the nonlinear problem harder",
  "With wider limits, larger tolerances or fewer constraints, and otherwise the same, a problem that could be satisfied still can; the best plan costs no more; and if the best plan of the relaxed problem satisfies the stricter one, it is best there too.",
  "every pair of histories of calls, one asking at least what the other asks, every measured state",
  "Quantifies over all pairs of configurations and all plans.",
  [NL+": setStateBounds, setInputBounds, setIneqConFunction, setEqConFunction", NO+": run, setBounds"])
p("The exact nonlinear command depends only on the task and the measured state",
  "Two nonlinear controllers, with static or dynamic dimensions, whose histories ask the same of a plan and set the same objective, report plans of the same cost when their solvers answer exactly; if the task has only one best plan, both report it and return the same command, whatever was set and replaced or optimised before, with any last command, with or without warm start.",
  "every pair of histories with the same configuration in force, every measured state, every last command",
  "Quantifies over all pairs of histories.",
  [NL+": optimize", NO+": run", CO+": evaluateStateModelEq"])
p("Only the order of the costs matters to the nonlinear controller",
  "When the objective is replaced by a strictly increasing function of it (a positive multiple, a sum with a constant), exact answers still report best plans of the original objective; if there is only one best plan the command is the same.",
  "every history, every objective, every strictly increasing function",
  "Quantifies over all objectives and all increasing functions.",
  [NL+": setObjectiveFunction, optimize", NO+": run", OB+": evaluate"])
p("User functions always act on the current values of the variables they read",
  "A model, objective, output or constraint function may read variables of the program (a set point, an obstacle, a counter) which change between calls and while the solver searches. Every evaluation uses the values there are at that time, and every call of the API returns what it would return if the variables had always had their present values: nothing computed with earlier values is kept in the controller and used again.",
  "every history of calls, every way the variables change between calls and between evaluations, every user function, every solver answer",
  "Quantifies over all histories and all ways the captured variables change; a stale value would show up only in particular orders of calls.",
  [NL+": setObjectiveFunction, setStateSpaceFunction, setOutputFunction, setIneqConFunction, setEqConFunction, optimize", NO+": run", OB+": evaluate", CO+": evaluateIneq, evaluateEq, evaluateStateModelEq", MO+": vectorField, outUser", "examples/ugv_ex.cpp"])
p("Separate controllers may be used from separate threads without synchronisation",
  "If every controller is constructed, used and destroyed by one thread only, no two threads access the same memory with one of them writing, whatever the schedule.",
  "every number of threads, every program of each of them (construction, copies, calls, destruction, logger settings), every schedule, both kinds of controllers",
  "A race needs a particular overlap of two threads and mostly has no visible effect; no test run enumerates schedules.",
  [LG+": instance, log, operator<<, setLevel, setPrefix, setStream, reset", IM+": optimize, setLoggerLevel, setLoggerPrefix, onInit", LM, NL])
p("Controllers in different threads do not influence each other's results",
  "Under every schedule, the calls a thread makes on its own controllers return, and report in their messages, exactly what they would in a program consisting of this thread alone, and leave its controllers in the same state; if every thread would run without fault alone, so does every schedule of all of them, and every schedule can be continued until all have finished.",
  "every number of threads, every program of each of them, every schedule, every point of the schedule, both kinds of controllers",
  "Quantifies over all interleavings of all programs.",
  [LG+": instance", IM+": optimize", LM, NL, LO, NO])
p("Messages of concurrent controllers arrive whole and filtered by the level",
  "When several threads use controllers and nobody changes the settings of the logger, the log contains in the end exactly the messages at or above the level, each with its tag and its full text, in an order which keeps that of every thread.",
  "every number of threads, every program of each of them, every schedule, every level, prefix and stream",
  "The failing interleavings are rare and depend on the scheduler.",
  [LG+": log, operator<<, currentType, thresholdLevel", IM+": optimize"])
p("Floating-point: without disturbances the constraints given to OSQP are exact",
  "Computing with floating-point numbers, when no disturbance is announced (or none has an effect), the plans OSQP may choose from are exactly the plans of the configured plant from the measured state which respect the configured limits: no rounding enters the constraints. With any disturbances, the dynamics remain equalities and consistent limits give l <= u in every row.",
  "every rounding (every precision), every dimension, every history of calls, every measured state and last command, every decision vector",
  "Quantifies over all numbers and all configurations; a test compares with a tolerance.",
  [PB+": generateEqualityConstraints, generateInequalityConstraints, get", LO+": run"])
p("Floating-point: disturbances shift the constraints by their rounding error only",
  "With disturbances, a vector which satisfies the rows given to OSQP up to a residual is a plan of the configured plant up to this residual and a bounded multiple of the unit roundoff times the size of the disturbance terms, and conversely; the multiple does not depend on the horizon.",
  "every rounding, every dimension, every history of calls, every residual, every decision vector",
  "Quantifies over all numbers, and the bound is uniform over all dimensions.",
  [PB+": get, generateEqualityConstraints, generateInequalityConstraints", LO+": run"])
p("Floating-point: the objective is the configured cost up to rounding",
  "Up to a constant, the objective given to OSQP differs from the configured cost of a plan by at most the relative error of nu + ny + ndu + 4 operations, measured on the cost without cancellations; so an answer within epsilon of the optimum of the problem given is within epsilon and these errors of the best plan.",
  "every rounding, every dimension, every history of calls, every plan",
  "Quantifies over all numbers; tests check a few values with a tolerance.",
  [PB+": generateObjective, get", LO+": run"])
p("Floating-point: non-negative weights give a positive semidefinite Hessian",
  "Computing with floating-point numbers, when all weights are non-negative the Hessian given to OSQP is positive semidefinite (OSQP requires it).",
  "every rounding, every dimension, every history of calls with non-negative weights, every direction",
  "The failures are in the last bit of particular coefficients.",
  [PB+": generateObjective", LO+": run"])
p("Floating-point: reported sequences are copies of OSQP's answer",
  "Computing with floating-point numbers, the states, inputs and the command reported are the numbers of OSQP's answer without any rounding; outputs are those of the reported states up to the relative error of nx + ndu + 2 operations; when the answer satisfies its rows up to a residual, the reported sequence follows the plant and respects the limits up to the residual and the rounding errors, and the plant driven by it stays within an explicit drift.",
  "every rounding, every dimension, every history of calls, every answer of OSQP",
  "Quantifies over all numbers and answers.",
  [LO+": run", LM+": optimize, getOptimalSequence"])
p("Constraint tolerances are the numbers the user passes",
  "The feasibility flag of a result, and the tolerances given to NLopt, use the tolerance which the user passed to setIneqConFunction and setEqConFunction.",
  "every tolerance, every sequence of API calls, every answer of the solver, every constraint function",
  "A test checks a few values away from the boundary; the claim is about the exact boundary of every tolerance.",
  [NL+": setIneqConFunction, setEqConFunction", CO+": setIneqConstraints, setEqConstraints, isFeasible"])
p("Floating-point: the reported average solution time lies between the extremes",
  "Computing with floating-point numbers, after any recorded solutions the reported average solution time is at least the reported minimum and at most the reported maximum; the number of solutions, minimum and maximum are those of the measured durations.",
  "every precision, every sequence of solutions, statuses and resets, every clock reading",
  "Quantifies over all sequences of clock readings; a test sees a few.",
  [PR+": addSolutionTime, solutionEnd"])
p("Floating-point: the solver gets the values of the user functions at the decision vector",
  "Computing with floating-point numbers, the value of the objective and of every user constraint which reaches the nonlinear solver is exactly what the user function returned, for the slack of the decision vector and for states and inputs which are those of the decision vector up to a few units in the last place (exactly these for unit scalings). Without rounding, all evaluations are those of the exact model.",
  "every precision, every sequence of API calls, every sequence of earlier evaluations, every decision vector, every user function",
  "Quantifies over all decision vectors, scalings, functions and histories in rounded arithmetic.",
  [OB+": evaluate", CO+": evaluateIneq, evaluateEq", MA+": unwrapVector"])
p("Floating-point: constraint derivatives are exactly zero where there is no dependence",
  "Computing with floating-point numbers, the derivative of a user constraint or of a model equation with respect to a state, input or slack on which it does not depend is exactly zero.",
  "every precision, every sequence of API calls and earlier evaluations, every decision vector, every constraint and model function",
  "Rounding errors may appear anywhere; only a proof excludes them for all functions and points.",
  [CO+": computeIneqJacobian, computeEqJacobian, computeStateEqJacobian, glueJacobian"])
p("Floating-point: objective derivatives are exactly zero where there is no dependence",
  "Computing with floating-point numbers, the derivative of the objective with respect to a state, input or slack on which it does not depend is exactly zero.",
  "every precision, every sequence of API calls and earlier evaluations, every decision vector, every objective",
  "Depends on which numbers are restored exactly after a perturbation; a test sees a few.",
  [OB+": evaluate, computeJacobian"])
p("Floating-point: accuracy of objective and constraint derivatives",
  "Computing with floating-point numbers, the derivatives of the objective and of the user constraints which reach the solver are those of the functions (affine up to a given error around the decision vector), up to an explicit error; in particular the derivative of a soft constraint with respect to the slack has at least the right order of magnitude.",
  "every precision, every history, every decision vector, every function which is affine up to a given error",
  "An error bound for all functions, scalings and points cannot be tested.",
  [OB+": computeJacobian", CO+": computeIneqJacobian, computeEqJacobian, glueJacobian"])
p("Floating-point: a model equation is reported as satisfied exactly when it holds",
  "Computing with floating-point numbers, the value of a model equation which reaches the solver is zero exactly when the states and inputs of the decision vector satisfy the equation, and otherwise close to its exact value.",
  "every precision, every history, every decision vector, every model, discrete and continuous",
  "Rounding may hide a residual at points no test visits.",
  [CO+": getStateEqConstraints, evaluateStateModelEq"])
p("Floating-point: accuracy of the derivatives of the model equations",
  "Computing with floating-point numbers, the derivatives of the model equations with respect to scaled states and inputs which reach the solver are those of the equations (for models affine up to a given error around the points of the equation), up to an explicit error.",
  "every precision, every history, every decision vector, every model which is affine up to a given error, discrete and continuous",
  "An error bound for all models, scalings and points cannot be tested.",
  [CO+": computeStateEqJacobian, getStateEqConstraints, glueJacobian"])
p("Arguments of the wrong size are refused",
  "A call of the linear controller with a vector or matrix whose size is not the documented one (possible with dynamic dimensions and from Python) reports failure and changes nothing.",
  "every dimensions, every sequence of earlier calls, every call with arguments of any sizes",
  "All combinations of sizes, calls and histories; the consequence of a missed test shows only in a later optimize, or as undefined behaviour.",
  [LM+": setReferences, setExogenousInputs, setStateBounds, setScalarConstraint, setOptimizerParameters", PB+": setStateBounds, setScalarConstraint, get", LO+": setReferences, setExogenousInputs, run"])
p("The Python module offers the C++ API",
  "A call of the C++ API, written in Python with numpy arrays and Python functions for the arguments, has the effect and the result it has in C++; a Python call which is refused leaves the controller as it is.",
  "every method, every arguments of every types and sizes, every user functions, every sequence of calls",
  "Which overload is chosen depends on the types and shapes of all arguments; a test sees a few, and says nothing of the programs to come.",
  ["python/pybind_export.cpp: expose_LMPC, expose_NLMPC, PYBIND11_MODULE", NL+": setEqConFunction"])
p("Printing the statistics shows the recorded times and leaves the stream as it was",
  "Printing getExecutionStats() to a stream shows, for the solutions since the last reset, their number, their shortest, longest, average and total time and the standard deviation to the microsecond, and the share of each status which occurred; numbers the program prints afterwards look as they did before.",
  "every history of calls, every durations and statuses, every state of the stream",
  "The text depends on all recorded durations and on the format state of the stream; a test compares one text.",
  [PR+": operator<<, resultStatusToString", IM+": getExecutionStats"])
p("Results of user functions with a wrong length are reported",
  "A state, output or inequality function of a controller with run-time dimensions (all controllers in Python) may return an array of any length. If the lengths are those of the problem, every call has the same outcome as with functions which fill a vector; a wrong length is reported to the caller: optimize returns, no result is computed from the array and the result is not marked feasible.",
  "every dimensions, functions, histories of calls, schedules of evaluations by the solver and solver answers",
  "Which evaluation meets the wrong length depends on the functions registered and on what the solver asks for.",
  ["python/pybind_export.cpp: PYBIND11_MODULE", MA+": unwrapVector", CO+": evaluateIneq, evaluateStateModelEq, isFeasible", NL+": setStateSpaceFunction, setOutputFunction, setIneqConFunction, optimize"])
p("A program which chooses its calls from what it was shown never meets a fault",
  "Take a program which decides each call from everything the controller showed it before (return values, last result, predicted sequences), and which only makes legal calls as long as the controller behaves as documented. Whatever the solver does, the program can be run for any number of calls: no call meets a fault, everything shown has the documented size, optimize returns what getLastResult shows. The example programs of the repository (vanderpol, networked oscillators, quadrotor, the two Python examples) are such programs, their setters are accepted and, in the nonlinear ones, every result flagged feasible respects the input limit of the example up to the tolerance given.",
  "every dimensions, program, number of calls and solver behaviour; for the examples: every pi, tolerances, plant step and solver behaviour",
  "The calls of a program depend on the results, so the reachable histories are those of an interaction with the solver.",
  ["examples/vanderpol_ex.cpp: main", "examples/networked_oscillators_ex.cpp: main", "examples/quadrotor_ex.cpp: main", "python/examples/example.py", "python/examples/example_nl.py", LM+": optimize, getLastResult, getOptimalSequence", NL+": optimize"])
p("Control loops with obstacles and set points which move",
  "Take a program whose objective, constraints or model read variables which the program changes between the calls (such as the preferred velocity and the obstacles of the robot example). If it makes legal calls as long as the controller behaves as documented, it can be run for any number of calls without a fault. Each result is flagged feasible exactly when the reported sequence satisfies the constraints set last, read with the values the variables had in that optimize, up to the tolerance. In the robot example a result flagged feasible keeps every predicted position outside both obstacles up to the tolerance, whatever was in memory before the variables were set, and its discrete model is the exact motion under constant acceleration.",
  "every dimensions, program, type and values of the variables, number of calls and solver behaviour",
  "Which values the variables have when a function is called depends on the interleaving of the program with the solver.",
  ["examples/ugv_ex.cpp: main", NL+": setObjectiveFunction, setIneqConFunction, optimize", CO+": isFeasible", "include/mpc/Utils.hpp: discretization"])
p("What the test suite asserts about single components holds for all sizes and data",
  "The assertions which the project's own tests make about one choice of sizes and numbers hold for every choice. Linear problem: with nothing but a model set the only finite bounds handed to the solver are those of the dynamics; with bounds set they are the ones given, for every step of the horizon; the first rows of the problem map the stacked states to the outputs. Nonlinear problem: the sizes of the mapping between decision vector and commands, what the states, commands and slack of a decision vector are, which slices starting at zero are valid, the values of the model equations, of user constraints on the current state and of a sum of squares at any decision vector, the default and the set bounds. Tools: which messages a stream gets for each level, prefix and after a reset; cleared statistics, the statistics after one and after three solutions; the discrete double integrator for any number of degrees of freedom and sampling time, and the discrete model of any system whose matrix has a vanishing power.",
  "every dimensions, matrices, vectors, functions, texts, durations, and, for the logger, every previous history",
  "The tests check one or a few sizes and constant data; the statements are about all of them.",
  ["test/LMPC/test_lmpc.cpp", "test/NLMPC/test_common.cpp", "test/NLMPC/test_constraints.cpp", "test/NLMPC/test_objective.cpp", "test/NLMPC/test_nloptimizer.cpp", "test/test_logger.cpp", "test/test_profiler.cpp", "test/test_utils.cpp", PB+": get", MA+": unwrapVector", CO+": evaluate*", LG+": log", PR+": addSolutionTime", "include/mpc/Utils.hpp: discretization"])
p("Signals that play no role do not matter, and signals that are not numbers stay where they belong",
  "A reference whose weight is zero and a disturbance which the model does not let act on anything do not influence the problem handed to OSQP, whatever values they have; in particular NaN or an infinity may stand for 'don't care'. For numbers this holds, also between two controllers configured by different histories. For other values it does not: a NaN among the output references, input references or disturbances of a step makes the linear cost of every state and input of that step NaN whatever the weights, an infinite reference of weight zero does the same (zero times infinity), and a NaN disturbance makes every dynamics row and every output row of its step NaN whatever the disturbance model, even for unlimited outputs. It goes no further: increment references affect their own entry only, measured state and last command their own rows only, the other bounds never, and the steps stay apart. Building the problem never fails.",
  "every accepted configuration history with numeric settings, every choice of double values (numbers, infinities, NaN) for measured state, last command, references and disturbances; the reach of a NaN for signals without infinities",
  "Tests use finite signals; how NaN and infinities travel through the dense products is a statement about all of them.",
  [PB+": get", LO+": run, setReferences, setExogenousInputs"])
p("The nonlinear solver is given a starting point it takes",
  "NLopt searches only from a starting point within the bounds of the decision variables, and throws otherwise; the controller then returns ERROR and its previous command. Whenever the configured problem has a solution the starting point must therefore be within the bounds. It is, exactly when: in a cold start (no answer yet, or no warm start) the measured state is within the bounds of every future state and the last input within those of every input; in a warm start the last answer, one step later, is within the bounds. In a control loop with warm start, limits that do not get looser along the horizon and a first measurement within them, every call starts, whatever is measured later. Otherwise calls can be refused although the problem is solvable (a measured state outside the bounds of later states; bounds on some steps only), and with warm start once a start is refused every later one is, for ever and whatever is measured.",
  "every accepted history of the nonlinear controller, every measured state and last input, every answer of a solver that keeps to its bounds; loops of any length",
  "The starting point depends on the whole history; that a refusal repeats for ever is a statement about unboundedly many calls.",
  [NO+": run, setStateBounds, setInputBounds, setStateAndInputBounds", NL+": optimize"])
p("In floating point too, the nonlinear solver is given a starting point it takes",
  "If in exact arithmetic the starting point of the nonlinear solver is within the bounds (C124), it is within them in floating point. Computing the starting point rounds the inputs only: each is multiplied by the input scaling and by the rounded reciprocal of the scaling, so that it is off by at most three roundings, relative to its size; states, slack and bounds are exact. Without input scaling, or with powers of two, the starting point is exact. With other scalings an input at its bound can be pushed over it (scaling 0.1, bound 7: the start is 7.000000000000001), NLopt refuses the start, and with warm start every later one, whatever is measured.",
  "every accepted history of the nonlinear controller, every measured state and last input, every monotone rounding with a relative error bound, in particular IEEE double; loops of any length",
  "Whether rounding moves an input over its bound depends on the values; tests with one scaling show nothing about the others.",
  [NO+": run", MA+": Iu2z, Iz2u, computeMapping"])
p("A user function which is not a number somewhere spoils only the derivatives that see it",
  "When user functions of the nonlinear controller return NaN or infinities at some points, the values given to the solver are those the functions return, and a derivative is a number exactly if the function values of its own difference quotient are numbers. Proved: values are passed on; state and slack derivatives of objective and constraints follow their own quotient; component c of a constraint function only affects row c, the state equation of step k only the rows of step k; functions that return numbers give exactly the numbers of the exact model. Violated for inputs (a probe of one input that leaves the domain makes the derivatives with respect to all inputs not a number, because the quotients are multiplied with the dense block matrix) and for the state equation (one component that leaves its domain makes the rows of all components of that step not a number, because the Jacobian is multiplied with the scalings as dense matrices).",
  "every accepted history of the nonlinear controller, every decision vector, all user functions with double results including NaN and infinities",
  "Domains of user functions are arbitrary; tests use functions defined everywhere.",
  [OB+": evaluate, computeJacobian", CO+": evaluateIneq, evaluateEq, getStateEqConstraints, glueJacobian", MA+": Iz2u"])
p("User functions are looked at only where the limits keep the plan",
  "At a decision vector within the limits, user functions which return numbers for all states and inputs within the limits (a logarithm or a root kept in its domain by bounds) give the solver numbers only: values and derivatives. Violated: the probes of the difference quotients do not look at the bounds, so that at a limit they leave it, and the slack, which is always zero, is probed at negative values. Proved: the probes stay within a millionth (of the largest entry of states and inputs, or of one) of the current point and never move the measured state, so that it is enough that the functions return numbers within limits widened by that much, or that the point keeps that distance from the limits.",
  "every accepted history of the nonlinear controller, every decision vector within the limits, all user functions with double results, all dimensions, discrete and continuous time",
  "Which points the difference quotients probe depends on the decision vector, the solver chooses it.",
  [OB+": computeJacobian", CO+": computeIneqJacobian, computeEqJacobian, computeStateEqJacobian"])
p("A scaling factor which is accepted leaves the problem made of numbers",
  "After any accepted calls of setInputScale and setStateScale, a measured state and last input made of numbers give a starting point made of numbers, and user functions which return numbers everywhere give the solver values and derivatives made of numbers. Violated: zero is accepted as a scaling factor without a word. Then every entry of the starting point for this input is NaN or infinite in every call, and the value of the state equation of this state component is NaN or infinite at every point, while the command, respectively this component of all reported states, is zero whatever the solver answers. Proved for scalings without zeros: the starting point is made of the numbers of exact arithmetic, and all values and derivatives are numbers.",
  "every accepted history of the nonlinear controller, all measured states, last inputs, answers, decision vectors, user functions with double results, all dimensions, discrete and continuous time",
  "Which entries are reached by the division by zero depends on dense matrix products over all steps and inputs.",
  [NL+": setInputScale, setStateScale", MA+": computeMapping", NO+": run", CO+": getStateEqConstraints"])
p("A value which is not a number stays where it belongs in the starting point",
  "The entries of the point the nonlinear solver starts from are numbers if the entries of the measured state, of the last input or of the last answer they stand for are numbers, whatever the others are. Violated for inputs: one component of the last input which is NaN or infinite (without an answer to start from), or one input of the last answer (warm start), makes every input of every step of the starting point NaN or infinite. Proved: states and slack are exactly the entries they stand for, number or not, and inputs are if all inputs are numbers.",
  "every accepted history of the nonlinear controller with scalings other than zero, all measured states, last inputs and last answers made of any doubles, all dimensions",
  "The spread comes from dense products with zeros (0 times NaN is NaN), tests use numbers.",
  [NO+": run", MA+": computeMapping"])
p("User functions are called at known points, in a known order and number",
  "While optimize runs, each time the solver asks for the objective, the inequality or equality constraints or the state equation, the user functions which are set are called exactly at these points in this order, and nothing else is called: the value at the current trajectories (with the output function at all steps of the horizon, in order, before each call of the objective and the inequality function); then, for derivatives, next to each entry of the states after the measured one, step by step, of the inputs (the last two moved together for objective and equality constraints), and of the slack. The number of calls follows from the dimensions: 1 + ph (nx + nu) + 2 points for the gradient of the objective, 1 + 2 ph (nx + nu) + 2 for the inequality constraints, 1 + 2 ph (nx + nu) for the equality constraints, ph (1 + 2 (nx + nu)) calls of a discrete-time model and twice as many of a continuous-time model. What the solver gets is determined by the answers to these calls. If a user function throws, the evaluation is left with the first call which throws, and no user function is called after it.",
  "every accepted history of the nonlinear controller, every decision vector the solver asks at, all user functions (returning or throwing at any call), all dimensions, discrete and continuous time",
  "Order and arguments of all calls for all dimensions and decision vectors; tests see results only.",
  [OB+": evaluate, computeJacobian", CO+": evaluateIneq, evaluateEq, evaluateStateModelEq, computeIneqJacobian, computeEqJacobian, computeStateEqJacobian", MO+": getOutput"])
p("User functions are shown only plans which the controller could make",
  "The trajectories which the user functions are called with start at the measured state and hold the input after the control horizon. Violated in the calls for derivatives: whenever the control horizon is shorter than the prediction horizon, the objective is called with an input after the control horizon moved on its own; and the model is called at step 0 with states next to the measured one, whose derivative is then not used. Proved: values are taken at the plan of the decision vector only, and objective, output and constraint functions see the measured state at step 0 in all calls.",
  "every accepted history of the nonlinear controller, every decision vector, all user functions, all dimensions",
  "A statement about all calls made during an optimization.",
  [OB+": computeJacobian", CO+": computeStateEqJacobian, getStateEqConstraints"])
p("One optimize calls user functions only as the solver asks, then for one check and one report, and ends at the first exception",
  "The user functions called during one optimize are, in this order: for each request of the solver the calls of that objective or constraint it has been given; if the solver answers, those of the check of the answer (output function at all steps and inequality constraints if such are set, then the equality constraints if such are set and no inequality constraint is violated); then the output function at all steps of the reported plan. Nothing is called if the solver fails, and after the search at most 2 (ph + 1) + 2 calls are made, all with exactly the plan which is reported; neither the model nor the objective is called then. If a call throws, no user function is called after it: if it belongs to the search or the check, optimize returns with status ERROR, code -1, not feasible, infinite cost and the previous command; if it belongs to the report, the exception leaves optimize. When inequality constraints are set no exception can leave, because the check calls the output function at the same points before the report.",
  "every accepted history of the nonlinear controller followed by an optimize, every sequence of requests and every answer of the solver, all user functions (returning or throwing at any call), all dimensions",
  "Order and arguments of all calls during an optimization with arbitrarily many requests, and each of them as the point where an exception starts.",
  [NO+": run, nloptObjFunWrapper, nloptEqConFunWrapper, nloptUserIneqConFunWrapper, nloptUserEqConFunWrapper", CO+": isFeasible"])
p("User functions with memory of their own cannot make the controller fault or change what it asks",
  "User functions may remember something and answer differently when they are asked the same again (counters, caches, random numbers, a clock). Whatever they answer, no well-formed call of the nonlinear controller faults; bounds, limits, functions and starting point the solver is given are those of a controller whose functions have no memory; which functions are called during optimize, in which order and with which states, inputs, slack and step is decided by the setters, the arguments, the solver's requests and its answer alone, except that objective and inequality constraints are shown the outputs the output function has just answered, and that the equality constraints are left out of the check when the inequality constraints were found violated; status, code, cost, command and the reported states and inputs depend on the solver's outcome only. If the answers do not depend on what is remembered (a cache, a counter, recorded data), optimize is that of the functions without memory, and exactly the calls of C132 are remembered, in order.",
  "all user functions with any memory, answering anything at every call, every well-formed history followed by an optimize, every sequence of requests and outcome of the solver, all dimensions",
  "The user functions are an arbitrary process interleaved with the library: every answer at every call is arbitrary, and histories are unbounded.",
  [NO+": run, nloptObjFunWrapper, nloptEqConFunWrapper, nloptUserIneqConFunWrapper, nloptUserEqConFunWrapper", CO+": isFeasible, evaluateIneq, evaluateEq, evaluateStateModelEq", OB+": evaluate"])
p("User functions which remember and may throw: nothing but an exception of the reported outputs gets out, and the first exception is the last call",
  "User functions may remember something, answer differently when asked the same again, and throw at any call (an exception derived from std::exception), now and not the next time. Then no well-formed call of the nonlinear controller faults, and every optimize either returns or is left by an exception. The first call which throws is the last one of the optimize; the calls before it are those of an optimize in which none throws. If it is made during the search or the check of the answer, optimize returns ERROR with code -1, infinite cost, not feasible, the previous command, and zero sequences. An exception leaves optimize only if the output function throws while the outputs of the answer are computed; then the last result and the reported outputs are the old ones and the reported states and inputs those of the answer. This can happen even if inequality constraints are set, whose check has just computed the same outputs. If no call throws, optimize reports the solver's answer, or its failure. What the solver is given depends only on the calls made before and on how each of them ended. What the functions remember is exactly what the calls made, in order, leave, whether they threw or not.",
  "all user functions with any memory, answering or throwing at every call, every well-formed history followed by an optimize, every sequence of requests and outcome of the solver, all dimensions",
  "The user functions are an arbitrary process interleaved with the library: any call of any function in any history may throw, depending on all the calls before.",
  [NO+": run, nloptObjFunWrapper, nloptEqConFunWrapper, nloptUserIneqConFunWrapper, nloptUserEqConFunWrapper", CO+": isFeasible, evaluateIneq, evaluateEq, evaluateStateModelEq", OB+": evaluate"])
p("User functions which ask their controller for its reports see those of the previous optimize, except for a half-written sequence at the end",
  "A user function may capture the controller which calls it and ask for its last result and its optimal sequence (it may also remember, answer differently each time and throw). Whatever it does with them, every function called during the search or during the check of the answer sees the last result and the sequence of the optimize before. The output function, called at the end for the report, sees the last result and the outputs of before, but the states and inputs of the new answer: a sequence which belongs to no answer. So a function which only asks for the last result sees the same throughout the optimize, and so does every function if there is no output function. After an optimize which returns, the last result is what it returned, and no other call changes result or sequence. The claim that every call sees the reports from before is false.",
  "all user functions with any memory, which may use the reports in any way and may throw, every well-formed history followed by an optimize, every sequence of requests and outcome of the solver, all dimensions",
  "What a function sees depends on the moment at which it is called in the middle of another call, on the solver's requests and on all answers before.",
  [NO+": run", IM+": getLastResult, getOptimalSequence, optimize", CO+": isFeasible"])
p("Controllers set up by one thread may then be used from separate threads without synchronisation",
  "A program constructs and configures its controllers in one thread and then starts threads, each of which uses controllers of its own. Whatever the schedule, there is no data race, the calls of every thread return and report what they would if the program set up and used the controllers of this thread only, in one thread, the controllers end in the same state, and if all these separate programs run without fault, every schedule does. A schedule which switches threads only between calls is one thread going on with the same calls in the same order. The claim about races is false twice: every message of whatever level is written through one unsynchronised logger, and a nonlinear controller and a copy the program made of it, used by different threads, share their optimizer without any message being written.",
  "all programs which set up controllers (their copies, messages and logger settings included), all programs of all threads started afterwards, all schedules",
  "Whether two accesses are ordered depends on the schedule, which a test cannot choose, and on which objects the set-up has connected.",
  ["include/mpc/Logger.hpp: Logger::instance, log, operator<<", IM+": setLoggerLevel, setLoggerPrefix, optPtr", LM+": LMPC", NL+": NLMPC"])
p("User functions of a nonlinear controller may use other controllers",
  "A cost, constraint, state or output function may capture other controllers of the program and construct, configure, ask or destroy them while its own controller is optimizing, depending on what they return. The other controllers are used exactly as the code of the functions says, one function call after the other, so that everything which holds of a controller used in an ordinary program holds of them. If the code of the functions runs without fault whenever it is called, so does the whole history. The outer controller depends on the answers of its functions only: whatever they remember or use to find them, functions which answer alike give the same tasks, results, commands, optimal sequences and calls, in particular the same as functions which compute the same answers without other controllers.",
  "all user functions which work with controllers of one class other than the one which calls them, remember, throw and read its reports; all histories of well-formed calls of the outer controller; all requests and outcomes of the solvers",
  "How often and in which order the functions are called depends on the solver's requests and on the answers; a test shows some nestings.",
  [NO+": run", NL+": setObjectiveFunction, setStateSpaceFunction", IM+": optimize, getLastResult"])
p("Linear and nonlinear controllers of all sizes in one program do not influence each other",
  "A program constructs, configures, asks, copies, assigns and destroys linear controllers and nonlinear controllers of different dimensions in any order. Every linear controller, and every nonlinear one which is never copied or assigned, returns what it would if no other controller existed and is left in the same state, whatever is done with the others and with copies of these. The same holds when the user functions of a nonlinear controller use such a mixture of controllers.",
  "all programs over any number of controllers of both classes and of all dimensions, copies and assignments included; all user functions which use such controllers while another one is optimizing",
  "Quantifies over all programs and all interleavings of steps on objects of an unbounded number of classes (NLMPC is a class template).",
  [IM+": optPtr", LM+": LMPC", NL+": NLMPC, ~NLMPC"])
p("A nonlinear controller and its copies are one controller with several names",
  "Copy construction and assignment of a nonlinear controller give it a further name: every name shows the same results, commands and sequences (each object keeps execution statistics of its own); a call by any name acts on all of them; the controller goes through the states, and gives the answers, of a controller which is alone and receives the calls made by any of its names in the order of the program, so that everything proved about one controller holds. Other controllers, and their copies, are not concerned. A program runs without fault exactly as far as every controller alone would: in particular destroying one name ends the controller for all.",
  "all programs which construct, copy, assign, call and destroy any number of nonlinear controllers of any dimensions, and linear ones, also from within user functions of another controller",
  "Quantifies over all programs and all ways in which names and controllers can be matched.",
  [NL+": NLMPC, ~NLMPC", IM+": optPtr", LM+": LMPC"])
open(os.path.join(os.path.dirname(__file__),"..","properties.jsonl"),"w").write("\n".join(json.dumps(x) for x in P)+"\n")
print(len(P))
