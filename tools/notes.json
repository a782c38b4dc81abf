{
"C01": "Equality rows <-> plant trajectory, for all dimensions, histories and decision vectors.",
"C02": "Objective of the QP = half the weighted tracking cost up to a constant (the increment reference is indexed as in the code, see C03).",
"C03": "Violated: du_k is tracked against column k-1 (column 0 is used twice). Partial: the objective with the shifted reference, and the claim for constant references.",
"C04": "Proved.",
"C05": "Violated: column k bounds u_{k-1}, column 0 the already applied command. Partial: what is bounded, and the claim for constant bounds.",
"C06": "Proved for the output as the code computes it (d_{k-1}; see C55).",
"C07": "Violated: x_k is paired with u_{k-1}. Partial: the pairing in the code, and the claim when U = 0.",
"C08": "Violated: the increment of step ch is not frozen. Partial: frozen for k > ch, full claim when ch = ph.",
"C09": "Violated: out-of-range access whenever ch differs from ph. Partial: accepted and right for ch = ph.",
"C10": "Proved except for the coefficients of the scalar constraint, which are shared by all steps (violated theorem).",
"C11": "Proved.",
"C12": "Proved.",
"C13": "Proved.",
"C14": "Proved.",
"C22": "First half proved (l <= u iff the limits are consistent). Second half violated: a rejected problem dereferences the missing workspace, always.",
"C23": "Proved.",
"C55": "Violated: the output of step k uses d_{k-1}. Partial: the claim for constant disturbances.",
"C15": "Proved: a refused slice changes nothing; an accepted one with 0 <= start changes exactly [start,end), {-1,-1} everything, for each slice overload.",
"C16": "Violated both ways: {1,ph} is refused, negative starts are accepted. Partial: exact accepted set, soundness for start >= 0, the unset slice.",
"C17": "Violated: the control horizon is used for the check. Partial: equal horizons.",
"C18": "Proved: sequences and command are the solver's vector; they obey the plant if the vector satisfies the equality rows.",
"C19": "Violated: OSQP always hands back vectors and the code only tests the pointer. Partial: when no vectors are handed back; and when vectors come only with solutions.",
"C20": "Violated: codes 3 and 4 (inaccurate infeasibility) give SUCCESS with is_feasible = false. Partial: every other code; exact extent.",
"C21": "Violated: vectors which are not a solution are used for the next warm start. Partial: exact vectors used, claim for conforming solver; settings handed to the solver proved; short user vectors fault.",
"C24": "Violated: the destructor releases the workspace again after any optimize. Partial: no leak and no double release over every history of calls.",
"C50": "Linear controller: the three unsupported setters throw, change nothing, and no other call throws.",
"C54": "OSQP: violated on codes 3, 4 and -6; partial: every other code. NLopt: proved for every code.",
"C56": "Proved.",
"C57": "Violated (whole-horizon input bounds with ch != ph, parameters of the other kind, rejected problems, short warm-start vectors). Partial: every history without those runs without undefined behaviour.",
"C25": "Proved over exact reals: count, minimum, maximum, total, mean of the recorded solutions, for every sequence.",
"C26": "Violated: the factor n/(n-1) is an integer division, so from the third solution on the reported deviation is not the standard one. Partial: exact for two solutions, bounds and the constant case.",
"C27": "Proved.",
"C28": "Proved.",
"C29": "Proved.",
"C30": "Proved.",
"C31": "Violated: int - Size is swapped; static -1 collides with the dynamic marker. Partial: the differences whose result is representable.",
"C32": "Violated: time is not advanced between sub-steps. Partial: autonomous fields, at most one sub-step, the formula actually computed.",
"C33": "Proved (exactness on cubic right-hand sides, linear and affine fields) over an arbitrary field.",
"C34": "Proved over the reals with Mathlib's matrix exponential (the third overload only compiles for ny = nx, see DESIGN).",
"C35": "Violated: the first state row is multiplied by the state scaling. Partial: everything else for every scaling history; the full claim when the state scaling is one.",
"C36": "Proved for every scaling history.",
"C39": "Violated: the chain-rule factor of the state scaling is missing in the objective gradient. Partial: exact for every unscaled (or unused) state component, all inputs and the slack. c39_api_gradient_partial states the same for complete histories of API calls, inside optimize.",
"C40": "Violated: the input row of step ph is never perturbed. Partial: exact for every affine constraint that does not depend on it. c40_api_gradient_partial states the same for complete histories of API calls, inside optimize.",
"C41": "Proved for every history and every affine equality constraint. c41_api_gradient_exact states the same for complete histories of API calls, inside optimize.",
"C37": "Violated: with a state scaling the constrained trajectory starts at the scaled measured state. Partial: the equivalence when every measured component is unscaled or zero, and for every history with the start the code uses.",
"C38": "Proved for every history and every affine model, discrete or continuous. c38_api_gradient_exact states the same for complete histories of API calls, inside optimize.",
"C42": "Proved for every history.",
"C51": "Proved for arbitrary user functions: every gradient entry is a difference quotient at the same unperturbed trajectory that gives the value. c51_api_quotients states the same for complete histories of API calls, inside optimize.",
"C53": "Proved: any two histories ending in the same configuration and measured state give the same values and (when asked for) gradients.",
"C43": "Violated: a constraint value that is not a number counts as satisfied. Partial: exact for all numeric values and at the API for every history; solver failures are never flagged feasible.",
"C44": "Violated: a slice starting below -1 is accepted and writes outside of the vector. Partial: without negative slices, every box is the last one set by an accepted call whose slice addresses the step; the slack box is never touched by bound setters.",
"C45": "Violated: hard_constraints = false never releases the slack. Partial: hard constraints fix the slack at zero; the slack stays fixed at zero after every history.",
"C46": "Violated: a time limit is not removed by later parameters without one. Partial: all other limits, positive time limits, and histories without time limits.",
"C47": "Violated for cold starts under scaling: the initial point holds the unscaled state. Partial: cold start in full for unit scalings; warm start shift proved for every history and every non-zero input scaling.",
"C48": "The kept command, flag, status and zero sequence are proved for every history. Starting point: violated when a failed cold start follows a solution and warm start is enabled later; proved otherwise.",
"C49": "Violated twice: every call of a constraint setter registers one more copy with NLopt, and the setters return true whatever NLopt says. Partial: the last function of each kind is the one used, in every history; which groups are registered; one copy when each constraint setter is called at most once; the flags when NLopt accepts.",
"C52": "Violated: seven operations which use the dimensions do not check (Mapping::setInputScaling, the two bound getters, the slice forms of setReferences/setExogenousInputs, mapToOutput, get). Partial: every other one refuses after every history without initialisation; validity of the dimensions proved in full.",
"C58": "Violated: the first state of the reported sequence is scaled. Partial: everything else in every history; in full for unit state scaling of the measured components.",
"C59": "Violated: an equality constraint on a controller with run-time dimensions. Further general fault theorems: parameters of the wrong type, an equality function with no equality constraint (negative slices: see C44). Partial: every other history, whatever the solver does.",
"C60": "Violated: setEqConFunction only works with compile-time dimensions. Partial: every history without it, for arbitrary arguments, including faults.",
"C61": "Violated: construction always fails when the control horizon is longer than the prediction horizon (general theorem). Partial: it succeeds otherwise.",
"C62": "Proved for both controllers and all histories (the clock is an input). Totality: histories with statistics run exactly when they run without.",
"C63": "Violated: with a control horizon shorter than the prediction horizon one more command than documented is free, so the first command is not optimal. Partial: the exact optimal control problem the code solves, in every configuration; the documented claim for configurations without frozen commands, step-dependent input bounds or increment references and scalar constraints.",
"C64": "Violated: bounds are not divided by the scaling factors, so with input scale 2 a command of twice the bound is returned. Partial: the quotients by the scaling respect the bounds, in every history; the claim in full for unit scaling.",
"C65": "Violated: inputs both scaled and bounded. Partial: for unit state scaling and inputs which are unscaled or unbounded, the vector handed back is an exact solution of the solver problem if and only if the reported sequences are a best allowed plan.",
"C66": "Proved. Added after a seeded fault (counting a dual infeasible outcome as feasible) survived C20.",
"C67": "Violated for the objective and the inequality constraints (the step of state or input component j follows entry j of the whole matrix in storage order, e.g. the measured state) and for the inputs in the equality constraints (the last input sets all steps). Proved: equality constraints with respect to states and model equations, always; all of it while states and inputs are at most one in magnitude.",
"C68": "Violated for the objective with a state scaling other than one (chain-rule factor missing, as C39) and for inequality constraints on the input of step ph (as C40). Proved with explicit error bounds: equality constraints and model equations in full, objective with unscaled states, inequality constraints which do not depend on the input of step ph.",
"C69": "Proved from C63 by strict convexity of the plan cost.",
"C70": "Proved for every equilibrium, including constant disturbances, limits and the code's shifted indices.",
"C71": "Proved.",
"C72": "Violated in every unit: OSQP's objective lacks the constant of the completed square, a plan at its reference is reported with negative cost. Partial: reported cost = cost of the sequence minus the cost of the zero vector.",
"C73": "Proved for every relaxation of state, input, output and scalar limits.",
"C74": "Linear controllers (which cannot be copied): proved for every program. Nonlinear ones: proved for programs without copies; violated with copies, which share one optimizer: a call on the copy replaces the results of the original, and destroying one leaves the other with a dangling pointer. c74_uncopied, c74_frame_uncopied, c74_nonlinear_uncopied: in programs with copies the claim holds of every controller which is not itself copied or assigned.",
"C75": "Linear: violated, no destructor releases the optimizer (one per constructed controller stays allocated); nothing is released twice. Nonlinear: proved without copies; violated with copies (double release). With copies: an optimizer is allocated exactly until its controller is destroyed by whichever name, after which destroying another name faults (c75_names_partial); an assignment loses the optimizer of the controller assigned to, which is never released (c75_assign_violated).",
"C76": "Proved for every nonzero factor, including negative ones.",
"C77": "Proved for every map of states, invertible or not.",
"C78": "Proved for every number of steps; limits with the code's indices (C01-C08).",
"C79": "Proved for every number of steps.",
"C80": "Proved for all four callbacks; what the gradients approximate is C38-C41, C51-C53.",
"C81": "Proved. The freezing of the commands after the control horizon is linear and stays; limits are excluded because they are not linear.",
"C82": "Proved over any ordered field, by nondegeneracy of the cost on the frozen plans; OSQP is an oracle assumed exact.",
"C83": "Proved for tasks without limits on outputs, with constant limits on the commands and unit input scaling beyond the first step (the conditions under which C63 and C65 hold); both solvers are oracles assumed exact.",
"C84": "Proved, as an equivalence (no row of the problem is scaled) and for the reported sequence and the plant.",
"C85": "Proved by strong convexity along the segment to the exact plan; stated with squares to stay within ordered fields.",
"C86": "Proved by induction over the steps: the shifted plan satisfies the next problem. Includes the terminal-equality special case.",
"C87": "Proved: the best cost is a Lyapunov function of the loop. Convergence needs an Archimedean field (such as the rationals or reals).",
"C88": "Proved for exceptions derived from std::exception. c88_ordinary reduces such histories to those without exceptions.",
"C89": "Violated: the output function is called after the states and inputs of the sequence have been overwritten and before the outputs and the result are (NLOptimizer.hpp:563-606), so the sequence mixes two calls. Partial: exactly what is kept and what is new.",
"C90": "Violated: setInputScale and setStateScale of the linear controller throw without an error message, and setStateSpaceFunction of the nonlinear one returns false with a message of type DETAIL only. Partial: every call of the linear controller which returns false, and every other refusal of the nonlinear one, leaves exactly its one message.",
"C91": "Violated: the logger is a singleton, so that the settings of one controller apply to all (Logger.hpp:50-54). Partial: the last setting made on any controller decides; programs with one controller meet the claim. The rest (transparency, level NONE, totality) is proved.",
"C92": "The reports are proved. Violated: a failed optimize leaves no error message (NLOptimizer.hpp:526-540 uses DETAIL, LOptimizer.hpp has no message for the status), so that nothing shows at level ALERT.",
"C93": "Proved for discrete models; unit state scaling is part of the statement (with other scalings the first state is wrong, C35).",
"C94": "Proved: the reported plan, moved one step ahead and prolonged, is allowed in the next step; induction over the steps. Each function set once and accepted, and scaled inputs unbounded (otherwise C49, C64 get in the way).",
"C95": "Proved: the cost of the reported plan falls by the cost of the step made, up to the accuracy of the solver; telescoping.",
"C96": "Proved from the equivalence of solver vectors and allowed plans, under the conditions under which C65 holds.",
"C97": "Proved under the conditions under which C65 holds; an exact answer is assumed, the path of the solver may differ.",
"C98": "Proved under the conditions under which C65 holds.",
"C99": "Proved: the abstract state of the controller depends on the stored functions only through the configuration, which is read in the environment of the evaluation; the environment is constant within one callback and between the feasibility check and the reported outputs. (examples/ugv_ex.cpp works this way with v_pref, which it leaves uninitialised for the first optimize.)",
"C100": "Violated: Logger is one unsynchronised object, and every message, of whatever type and at whatever level, writes its member currentType (Logger.hpp:75); two threads which both call optimize (LMPC), or both construct an NLMPC, race in every schedule. Partial: the logger and its stream are the only memory two threads ever have in common, and there is no race when at most one thread writes messages or sets the logger. That the recorded accesses are all an operation changes and depends on is proved too (c100_writes_*, c100_reads_*).",
"C101": "Proved for sequentially consistent execution of the steps (which C++ does not promise once there is a race, see C100): simulation between the shared world and a world of the thread's own, up to the addresses of the optimizers; copies included. A schedule which switches threads only between actions is moreover equal, log and settings included, to the single-threaded program with the same actions in the same order.",
"C102": "Violated: operator<< compares the level with the member currentType, which the log() of another thread overwrites: an error message at level NORMAL loses its text, or a DETAIL message below the level is printed. Partial: when all messages are visible (for instance at level DEEP) or none is (NONE), nothing is lost or added, tags and texts stay in one piece and keep the order of each thread. The claim holds in full for every schedule which switches threads only between actions (one lock around every call).",
"C103": "Proved over an abstract monotone, odd, idempotent rounding with relative error eps; Rounding.binary 53 (IEEE round to nearest even, unbounded exponents) is an instance. Equality of the feasible sets, not an approximation.",
"C104": "Proved with the error gamma(ndu + 2) * B, B a bound on the disturbance terms without cancellations; gamma n lies between n eps and 2 n eps (c104_gamma).",
"C105": "Proved; the reference of the increments is the one the code pairs (see C03).",
"C106": "Violated in every binary arithmetic with at least 3 digits, double included: with y = x + (1 + 2^(1-p)) x' the entry (1 + 2^(1-p))^2 is rounded down, and the Hessian handed to OSQP has a negative direction. Partial: positive semidefinite up to gamma(nu + ny + 2) times the curvature without cancellations; exactly positive semidefinite when the outputs select states (coefficients 0, 1, -1, no state read twice), and in exact arithmetic.",
"C107": "Proved; the last part is C84 transferred to floating-point numbers.",
"C108": "Violated: the tolerance parameters are `const float`; the default 1e-10 becomes 14411519 * 2^-57 > 1e-10, so a constraint violated by more than 1e-10 is flagged feasible. Partial: the flag and the solver use the tolerance rounded to single precision (relative error 2^-24), exact for representable tolerances.",
"C109": "Violated for double: after three solutions of 5 ms each the reported average is below the reported minimum. Partial: number, minimum and maximum are exact; total and average up to (1 +- eps)^n and (1 +- eps)^(4n), for every sequence and precision.",
"C110": "For any rounding with eps <= 1/8 (double included), after any exact history and any rounded evaluations. The twin model rounds after every operation; with the identity it is the exact model (c110_without_rounding).",
"C111": "Inequality, equality and model equations: central differences whose two points differ in the perturbed entry only.",
"C112": "Violated for double: the objective is differenced against a value computed before the perturbations, and perturbing and restoring an entry loses small numbers. Partial: slack exactly; states and inputs up to the variation of the objective over 7 eps M, divided by the step.",
"C113": "Violated for double: the slack step is (2^-26)^2 at slack 0, absorbed by constraint values of 4 and more, so the slack derivative is 0. Partial: explicit bounds for every entry of inequality (not using the last input), equality and objective gradients.",
"C114": "Violated for continuous models (a state of 2^60 which should grow by 1). Partial: zero exactly when the equation holds for discrete models; relative error of two roundings (discrete) and six roundings of the terms (continuous).",
"C115": "Error bounds for all non-zero entries; with C111 this covers the whole row.",
"C116": "Violated: no size is tested by the library. Partial: a call on whose sizes the code insists (through an Eigen assertion) is never carried out with wrong ones (c116_tested_partial); whole-horizon references and disturbances are accepted with any sizes and, if unusable, no later optimize returns (c116_stored_partial), superfluous columns being ignored (c116_beyond_partial); scalar-constraint multipliers are only measured together (c116_split_partial).",
"C117": "Violated: whole-horizon references cannot be set (the slice overload is bound twice; TypeError), and setting an equality constraint ends the program (run-time dimensions); solver parameters cannot be constructed and default tolerances are not exported. Partial: every other call has the effect and the result of the C++ call (c117_linear_partial, c117_nonlinear_partial), any Python call whatever is a C++ call of the same method or changes nothing, and any Python program is a C++ program (c117_programs_partial, c117_nl_programs_partial).",
"C118": "Violated: once there is a solution the total time is printed with two decimals (setprecision(2) of the percentages stays in force: 4 ms in total are printed as 0.00), and the stream stays in fixed notation with two decimals. Partial: the text is otherwise the report, each numeral the nearest one (c118_report_partial, for the text read back as numbers), the format left behind, what is printed before the first solution (the largest double and its negative), the printed shares add to 100 up to rounding.",
"C119": "Violated: the length is never compared with the dimension. An evaluation of the function breaks a precondition of Eigen (c119_reported_violated) and the feasibility check takes the entries that there are, so an inequality function which returns an empty array makes every result feasible (c119_unseen_violated). Partial: right lengths give the same outcome (c119_right_partial), no optimize which needs a function that always returns a wrong length returns (c119_wrong_partial), what the flag means for any lengths (c119_flag_partial).",
"C120": "c120_linear and c120_nonlinear are about arbitrary programs, c120_loop about every control loop, c120_script and c120_flagged about the result of a loop; the other theorems are the example programs. The plant of a loop is any function of what was shown.",
"C121": "c121_program and c121_script are about arbitrary programs, c121_flagged about any history. The search itself is an oracle: the theorems say what a flag means, not that a feasible sequence is found. The example reads the preferred velocity before it sets it (ugv_ex.cpp:158 after 146); c121_ugv holds for any contents.",
"C122": "The test 'scalar constraints' of the linear controller is C07. The tests that run a whole controller (convergence of examples) are not part of this property: see C120 and C121. The test of the deviation asserts 0.081 with margin 0.01 for 0.1, 0.2, 0.3; the example beside c122_three_solutions shows that the sample deviation 0.1 would fail it, so the test enshrines the defect of C26. The text of a status outside the enumeration is not modelled.",
"C123": "Violated for NaN and infinite values (three claims: NaN reference, infinite reference, NaN disturbance); proved for numbers (c123_unused_partial in doubles, c123_unused_asked at the API in exact arithmetic), and the exact reach of a NaN is proved (c123_spread). The settings (model, weights, bounds) are numbers or infinite bounds; what OSQP does with NaN is outside the model. Finite arithmetic is exact here and the two zeros are identified. The increment reference of step k is weighed with the weight of step k+1 (and that of step 0 also with that of step 0), see duUsed.",
"C124": "Violated in both forms: c124_measured_violated (measured state outside the limits of later steps, problem solvable) and c124_shift_violated (limits on the first step only, second call of a loop refused). Proved: iff-characterisations for cold and warm start, the loop theorem for nested limits, and that refusals repeat for ever. The rule of nlopt_optimize about starting points is the specification StartRule; it is documented NLopt behaviour, not part of /repo.",
"C125": "Violated in double for scalings which are no powers of two (c125_saturated_violated: an input at its bound). Proved: what exactly is rounded (c125_rounded_start), the error bound, exactness for scalings commuting with rounding (1, powers of two: double_pow), a margin condition, and that such refusals repeat for ever. No overflow or underflow.",
"C126": "Violated (c126_objective_violated: another input's probe; c126_model_violated: another component of the state equation). Proved: exactly which quotients each value and derivative comes from, for objective, constraints and discrete/continuous state equations (c126_*_partial), consequences, and agreement with the exact model. Numbers are computed exactly here (no rounding, no overflow); decision vector and settings are numbers.",
"C127": "Violated at the limits (c127_limits_violated: a state at its upper bound; c127_slack_violated: slack zero). Proved: widened limits (c127_limits_partial), distance from the limits (c127_margin_partial) and the general form for any scaling (c127_near_partial).",
"C128": "Violated by zero scalings (c128_start_violated, c128_model_violated); what happens with them is proved for every history: c128_input_zero, c128_input_stuck, c128_state_zero (values), c128_state_derivatives, c128_state_stuck. Proved without zeros: c128_start_partial, c128_evaluations_partial.",
"C129": "Violated (c129_spread_violated; c129_spread is what happens instead, for every history). Proved: c129_place_partial.",
"C130": "c130_objective, c130_inequalities, c130_equalities, c130_model give the calls as lists and that the programs compute what Objective.lean and Constraints.lean do; c130_counts their numbers; c130_exceptions where exceptions leave.",
"C131": "Violated (c131_held_violated, c131_measured_violated; c131_not_held and c131_not_measured say that it happens in every history). Proved: c131_measured_partial, c131_values_partial.",
"C132": "c132_trace gives the calls as a list and that the program is optimize; c132_plan the arguments after the search; c132_tail their number; c132_returns, c132_search_throws, c132_check_throws, c132_report_throws the exceptions, by the phase of the first one; c132_contained that none leaves with inequality constraints. How NLopt reacts to a throwing callback (it asks nothing more and throws) is assumed, as in Throwing.lean.",
"C133": "c133_total and c133_answers: no fault; c133_task, c133_independent: what the solver is given, compared with functions without memory and between any two sets of functions; c133_calls: the calls up to the outputs shown (bare); c133_result: the result; c133_memory: functions whose memory does not show. Proved on the programs of C130 and C132 by running them with a memory.",
"C134": "c134_total, c134_answers: no fault; c134_calls, c134_first_throw: the calls and the one which throws; c134_caught, c134_escaped, c134_no_throw, c134_result: the three ways to end; c134_task: what the solver is given; c134_memory, c134_history, c134_setters: what is remembered; c134_escape_despite_inequalities: an escaping exception which C132 excludes for functions without memory. Exceptions not derived from std::exception are not caught by the code at all and are not modelled. c134_agrees_returning, c134_agrees_memoryless: the model runs as those of C133 and C132 where they overlap.",
"C135": "c135_reads, c135_seen: which reports every call sees, for every way the optimize may end; c135_last_result; c135_no_output_partial, c135_others_partial: when the claim holds; c135_returned, c135_kept: when reports change. c135_sequence_violated: the output function sees new states and inputs with old outputs (NLOptimizer.hpp:589-591 writes two members before it calls the function for the third). Functions which call optimize or a setter of their own controller are not modelled.",
"C136": "Violated: c136_violated (two threads which only let a linear controller each optimize race on the logger; c136_linear: in every schedule which lets them finish; c136_messages_race: so do any two threads which write a message), c136_copies_violated (a nonlinear controller and its copy, one setter call each, no message: a race on the shared optimizer). Partial: c136_only_logger_partial (if the set-up makes no copies across threads, a race can only concern the logger), c136_quiet_partial (no race if at most one of the threads writes messages or sets the logger). Proved: c136_as_alone, c136_runs, c136_whole_actions. C100-C102 are the case without set-up.",
"C137": "c137_uses (over a whole history), c137_optimize (within one call), c137_program (the steps are an ordinary program), c137_linear (C74 and with it all properties of histories apply to linear controllers inside), c137_nonlinear_partial (likewise for nonlinear controllers inside; missing: programs which copy them, as in C74), c137_nonlinear_uncopied (the same in programs with copies, for a controller which is not itself copied), c137_sound, c137_sound_optimize (no fault), c137_answers, c137_transparent (the outer controller sees the answers only). The functions do not call setters or optimize of the controller which calls them; an inner step which faults counts as an exception after which the inner controllers are lost.",
"C138": "c138_alone (any family of classes), c138_linear, c138_nonlinear (with them all properties of histories apply), c138_runs (a program without copies runs if every controller alone does), c138_inside, c138_inside_nonlinear (within user functions). A call of a member function of another class counts as a fault (it does not compile). Copies of nonlinear controllers share their optimizer (C74, violated). The same for a linear controller in a program with several threads, each with controllers of its own, whatever the schedule (c138_threads).",
"C139": "c139_alone, c139_names, c139_frame, c139_history (with it all properties of histories apply to copied controllers), c139_runs (no fault), c139_inside (within user functions), c139_classes, c139_mixed (in programs which also have linear controllers and nonlinear ones of other dimensions). This says what copies do; that a user expects them to be independent, and that this is violated, is C74. Linear controllers cannot be copied. The execution statistics, which every object holds by value (IMPC.hpp:296), are not part of this model (C62). A nonlinear controller and its copies which belong to one of several threads: c139_threads, whatever the schedule."
}