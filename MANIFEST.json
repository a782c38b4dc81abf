{
 "claims": [
  {
   "property": "C01",
   "status": "proved",
   "theorems": [
    "Mpc.Props.c01_dynamics",
    "Mpc.Props.c01_rows_are_equalities"
   ],
   "note": "Equality rows <-> plant trajectory, for all dimensions, histories and decision vectors."
  },
  {
   "property": "C02",
   "status": "proved",
   "theorems": [
    "Mpc.Props.c02_objective",
    "Mpc.Props.c02_objective_on_trajectories"
   ],
   "note": "Objective of the QP = half the weighted tracking cost up to a constant (the increment reference is indexed as in the code, see C03)."
  },
  {
   "property": "C03",
   "status": "partial",
   "theorems": [
    "Mpc.Props.c03_violated",
    "Mpc.Props.c03_shifted_partial",
    "Mpc.Props.c03_constant_partial"
   ],
   "note": "Violated: du_k is tracked against column k-1 (column 0 is used twice). Partial: the objective with the shifted reference, and the claim for constant references."
  },
  {
   "property": "C04",
   "status": "proved",
   "theorems": [
    "Mpc.Props.c04_state_bounds",
    "Mpc.Props.c04_feasible"
   ],
   "note": "Proved."
  },
  {
   "property": "C05",
   "status": "partial",
   "theorems": [
    "Mpc.Props.c05_asked",
    "Mpc.Props.c05_violated",
    "Mpc.Props.c05_last_command_violated",
    "Mpc.Props.c05_held_partial",
    "Mpc.Props.c05_constant_partial"
   ],
   "note": "Violated: column k bounds u_{k-1}, column 0 the already applied command. Partial: what is bounded, and the claim for constant bounds."
  },
  {
   "property": "C06",
   "status": "proved",
   "theorems": [
    "Mpc.Props.c06_output_bounds"
   ],
   "note": "Proved for the output as the code computes it (d_{k-1}; see C55)."
  },
  {
   "property": "C07",
   "status": "partial",
   "theorems": [
    "Mpc.Props.c07_violated",
    "Mpc.Props.c07_held_partial",
    "Mpc.Props.c07_state_only_partial"
   ],
   "note": "Violated: x_k is paired with u_{k-1}. Partial: the pairing in the code, and the claim when U = 0."
  },
  {
   "property": "C08",
   "status": "partial",
   "theorems": [
    "Mpc.Props.c08_violated",
    "Mpc.Props.c08_increment_rows_partial",
    "Mpc.Props.c08_frozen_partial",
    "Mpc.Props.c08_full_partial"
   ],
   "note": "Violated: the increment of step ch is not frozen. Partial: frozen for k > ch, full claim when ch = ph."
  },
  {
   "property": "C09",
   "status": "partial",
   "theorems": [
    "Mpc.Props.c09_fault",
    "Mpc.Props.c09_violated",
    "Mpc.Props.c09_equal_horizons_partial"
   ],
   "note": "Violated: out-of-range access whenever ch differs from ph. Partial: accepted and right for ch = ph."
  },
  {
   "property": "C10",
   "status": "partial",
   "theorems": [
    "Mpc.Props.c10_feasible_set",
    "Mpc.Props.c10_objective",
    "Mpc.Props.c10_configOf_eq",
    "Mpc.Props.c10_scalar_coefficients_violated"
   ],
   "note": "Proved except for the coefficients of the scalar constraint, which are shared by all steps (violated theorem)."
  },
  {
   "property": "C11",
   "status": "proved",
   "theorems": [
    "Mpc.Props.c11_problem_of_configuration"
   ],
   "note": "Proved."
  },
  {
   "property": "C12",
   "status": "proved",
   "theorems": [
    "Mpc.Props.c12_no_limits"
   ],
   "note": "Proved."
  },
  {
   "property": "C13",
   "status": "proved",
   "theorems": [
    "Mpc.Props.c13_positive_semidefinite",
    "Mpc.Props.c13_symmetric"
   ],
   "note": "Proved."
  },
  {
   "property": "C14",
   "status": "proved",
   "theorems": [
    "Mpc.Props.c14_problem_matrices",
    "Mpc.Props.c14_conversion",
    "Mpc.Props.c14_conversion_upper"
   ],
   "note": "Proved."
  },
  {
   "property": "C15",
   "status": "proved",
   "theorems": [
    "Mpc.Props.c15_refused",
    "Mpc.Props.c15_state_bounds",
    "Mpc.Props.c15_input_bounds",
    "Mpc.Props.c15_output_bounds",
    "Mpc.Props.c15_scalar_bounds",
    "Mpc.Props.c15_weights",
    "Mpc.Props.c15_references",
    "Mpc.Props.c15_disturbances"
   ],
   "note": "Proved: a refused slice changes nothing; an accepted one with 0 <= start changes exactly [start,end), {-1,-1} everything, for each slice overload."
  },
  {
   "property": "C16",
   "status": "partial",
   "theorems": [
    "Mpc.Props.c16_accepted_partial",
    "Mpc.Props.c16_sound_partial",
    "Mpc.Props.c16_whole_partial",
    "Mpc.Props.c16_rejects_valid_violated",
    "Mpc.Props.c16_accepts_negative_violated",
    "Mpc.Props.c16_nonlinear_partial",
    "Mpc.Props.c16_nonlinear_violated"
   ],
   "note": "Violated both ways: {1,ph} is refused, negative starts are accepted. Partial: exact accepted set, soundness for start >= 0, the unset slice."
  },
  {
   "property": "C17",
   "status": "partial",
   "theorems": [
    "Mpc.Props.c17_violated",
    "Mpc.Props.c17_equal_horizons_partial"
   ],
   "note": "Violated: the control horizon is used for the check. Partial: equal horizons."
  },
  {
   "property": "C18",
   "status": "proved",
   "theorems": [
    "Mpc.Props.c18_sequence",
    "Mpc.Props.c18_plant"
   ],
   "note": "Proved: sequences and command are the solver's vector; they obey the plant if the vector satisfies the equality rows."
  },
  {
   "property": "C19",
   "status": "partial",
   "theorems": [
    "Mpc.Props.c19_violated",
    "Mpc.Props.c19_no_vectors_partial",
    "Mpc.Props.c19_conforming_partial"
   ],
   "note": "Violated: OSQP always hands back vectors and the code only tests the pointer. Partial: when no vectors are handed back; and when vectors come only with solutions."
  },
  {
   "property": "C20",
   "status": "partial",
   "theorems": [
    "Mpc.Props.c20_violated",
    "Mpc.Props.c20_status_partial",
    "Mpc.Props.c20_extent_partial"
   ],
   "note": "Violated: codes 3 and 4 (inaccurate infeasibility) give SUCCESS with is_feasible = false. Partial: every other code; exact extent."
  },
  {
   "property": "C21",
   "status": "partial",
   "theorems": [
    "Mpc.Props.c21_warm_partial",
    "Mpc.Props.c21_getters",
    "Mpc.Props.c21_conforming_partial",
    "Mpc.Props.c21_settings",
    "Mpc.Props.c21_short_vectors_fault_partial",
    "Mpc.Props.c21_violated"
   ],
   "note": "Violated: vectors which are not a solution are used for the next warm start. Partial: exact vectors used, claim for conforming solver; settings handed to the solver proved; short user vectors fault."
  },
  {
   "property": "C22",
   "status": "partial",
   "theorems": [
    "Mpc.Props.c22_bounds_ordered",
    "Mpc.Props.c22_rejected_fault",
    "Mpc.Props.c22_violated"
   ],
   "note": "First half proved (l <= u iff the limits are consistent). Second half violated: a rejected problem dereferences the missing workspace, always."
  },
  {
   "property": "C23",
   "status": "proved",
   "theorems": [
    "Mpc.Props.c23_no_memory",
    "Mpc.Props.c23_after_optimize"
   ],
   "note": "Proved."
  },
  {
   "property": "C24",
   "status": "partial",
   "theorems": [
    "Mpc.Props.c24_no_leak_partial",
    "Mpc.Props.c24_destroy_partial",
    "Mpc.Props.c24_violated"
   ],
   "note": "Violated: the destructor releases the workspace again after any optimize. Partial: no leak and no double release over every history of calls."
  },
  {
   "property": "C25",
   "status": "proved",
   "theorems": [
    "Mpc.Props.c25_statistics",
    "Mpc.Props.c25_no_overflow"
   ],
   "note": "Proved over exact reals: count, minimum, maximum, total, mean of the recorded solutions, for every sequence."
  },
  {
   "property": "C26",
   "status": "partial",
   "theorems": [
    "Mpc.Props.c26_violated",
    "Mpc.Props.c26_two_partial",
    "Mpc.Props.c26_bounds_partial",
    "Mpc.Props.c26_constant_partial"
   ],
   "note": "Violated: the factor n/(n-1) is an integer division, so from the third solution on the reported deviation is not the standard one. Partial: exact for two solutions, bounds and the constant case."
  },
  {
   "property": "C27",
   "status": "proved",
   "theorems": [
    "Mpc.Props.c27_histogram",
    "Mpc.Props.c27_percentages"
   ],
   "note": "Proved."
  },
  {
   "property": "C28",
   "status": "proved",
   "theorems": [
    "Mpc.Props.c28_reset",
    "Mpc.Props.c28_clear"
   ],
   "note": "Proved."
  },
  {
   "property": "C29",
   "status": "proved",
   "theorems": [
    "Mpc.Props.c29_text",
    "Mpc.Props.c29_total",
    "Mpc.Props.c29_none"
   ],
   "note": "Proved."
  },
  {
   "property": "C30",
   "status": "proved",
   "theorems": [
    "Mpc.Props.c30_reset",
    "Mpc.Props.c30_idempotent",
    "Mpc.Props.c30_forgets"
   ],
   "note": "Proved."
  },
  {
   "property": "C31",
   "status": "partial",
   "theorems": [
    "Mpc.Props.c31_sum",
    "Mpc.Props.c31_product",
    "Mpc.Props.c31_defined",
    "Mpc.Props.c31_int_minus_violated",
    "Mpc.Props.c31_difference_violated",
    "Mpc.Props.c31_difference_partial",
    "Mpc.Props.c31_int_minus_partial"
   ],
   "note": "Violated: int - Size is swapped; static -1 collides with the dynamic marker. Partial: the differences whose result is representable."
  },
  {
   "property": "C32",
   "status": "partial",
   "theorems": [
    "Mpc.Props.c32_violated",
    "Mpc.Props.c32_zero_one_partial",
    "Mpc.Props.c32_autonomous_partial",
    "Mpc.Props.c32_actual_partial",
    "Mpc.Props.c32_negative_partial"
   ],
   "note": "Violated: time is not advanced between sub-steps. Partial: autonomous fields, at most one sub-step, the formula actually computed."
  },
  {
   "property": "C33",
   "status": "proved",
   "theorems": [
    "Mpc.Props.c33_cubic",
    "Mpc.Props.c33_linear",
    "Mpc.Props.c33_affine"
   ],
   "note": "Proved (exactness on cubic right-hand sides, linear and affine fields) over an arbitrary field."
  },
  {
   "property": "C34",
   "status": "proved",
   "theorems": [
    "Mpc.Props.c34_zoh",
    "Mpc.Props.c34_zoh_disturbance",
    "Mpc.Props.c34_output",
    "Mpc.Props.c34_composition",
    "Mpc.Props.c34_zero"
   ],
   "note": "Proved over the reals with Mathlib's matrix exponential (the third overload only compiles for ny = nx, see DESIGN)."
  },
  {
   "property": "C35",
   "status": "partial",
   "theorems": [
    "Mpc.Props.c35_violated",
    "Mpc.Props.c35_sequences_partial",
    "Mpc.Props.c35_first_row_partial",
    "Mpc.Props.c35_unscaled_partial"
   ],
   "note": "Violated: the first state row is multiplied by the state scaling. Partial: everything else for every scaling history; the full claim when the state scaling is one."
  },
  {
   "property": "C36",
   "status": "proved",
   "theorems": [
    "Mpc.Props.c36_compress_expand",
    "Mpc.Props.c36_expand_compress"
   ],
   "note": "Proved for every scaling history."
  },
  {
   "property": "C37",
   "status": "partial",
   "theorems": [
    "Mpc.Props.c37_residual_zero_iff_model_partial",
    "Mpc.Props.c37_residual_zero_iff_scaled_start_partial",
    "Mpc.Props.c37_scaled_measured_state_violated"
   ],
   "note": "Violated: with a state scaling the constrained trajectory starts at the scaled measured state. Partial: the equivalence when every measured component is unscaled or zero, and for every history with the start the code uses."
  },
  {
   "property": "C38",
   "status": "proved",
   "theorems": [
    "Mpc.Props.c38_api_gradient_exact",
    "Mpc.Props.c38_dynamics_gradient_exact"
   ],
   "note": "Proved for every history and every affine model, discrete or continuous. c38_api_gradient_exact states the same for complete histories of API calls, inside optimize."
  },
  {
   "property": "C39",
   "status": "partial",
   "theorems": [
    "Mpc.Props.c39_api_gradient_partial",
    "Mpc.Props.c39_objective_gradient_partial",
    "Mpc.Props.c39_scaled_objective_gradient_violated"
   ],
   "note": "Violated: the chain-rule factor of the state scaling is missing in the objective gradient. Partial: exact for every unscaled (or unused) state component, all inputs and the slack. c39_api_gradient_partial states the same for complete histories of API calls, inside optimize."
  },
  {
   "property": "C40",
   "status": "partial",
   "theorems": [
    "Mpc.Props.c40_api_gradient_partial",
    "Mpc.Props.c40_ineq_gradient_partial",
    "Mpc.Props.c40_last_input_violated"
   ],
   "note": "Violated: the input row of step ph is never perturbed. Partial: exact for every affine constraint that does not depend on it. c40_api_gradient_partial states the same for complete histories of API calls, inside optimize."
  },
  {
   "property": "C41",
   "status": "proved",
   "theorems": [
    "Mpc.Props.c41_api_gradient_exact",
    "Mpc.Props.c41_eq_gradient_exact"
   ],
   "note": "Proved for every history and every affine equality constraint. c41_api_gradient_exact states the same for complete histories of API calls, inside optimize."
  },
  {
   "property": "C42",
   "status": "proved",
   "theorems": [
    "Mpc.Props.c42_outputs",
    "Mpc.Props.c42_user_functions_get_outputs"
   ],
   "note": "Proved for every history."
  },
  {
   "property": "C43",
   "status": "partial",
   "theorems": [
    "Mpc.Props.c43_numbers_partial",
    "Mpc.Props.c43_violated",
    "Mpc.Props.c43_api_flag",
    "Mpc.Props.c43_failure_infeasible"
   ],
   "note": "Violated: a constraint value that is not a number counts as satisfied. Partial: exact for all numeric values and at the API for every history; solver failures are never flagged feasible."
  },
  {
   "property": "C44",
   "status": "partial",
   "theorems": [
    "Mpc.Props.c44_boxes_partial",
    "Mpc.Props.c44_slack_partial",
    "Mpc.Props.c44_negative_slice_violated"
   ],
   "note": "Violated: a slice starting below -1 is accepted and writes outside of the vector. Partial: without negative slices, every box is the last one set by an accepted call whose slice addresses the step; the slack box is never touched by bound setters."
  },
  {
   "property": "C45",
   "status": "partial",
   "theorems": [
    "Mpc.Props.c45_hard_partial",
    "Mpc.Props.c45_never_released_partial",
    "Mpc.Props.c45_soft_violated"
   ],
   "note": "Violated: hard_constraints = false never releases the slack. Partial: hard constraints fix the slack at zero; the slack stays fixed at zero after every history."
  },
  {
   "property": "C46",
   "status": "partial",
   "theorems": [
    "Mpc.Props.c46_limits_partial",
    "Mpc.Props.c46_positive_time_partial",
    "Mpc.Props.c46_no_time_limit_partial",
    "Mpc.Props.c46_time_limit_violated"
   ],
   "note": "Violated: a time limit is not removed by later parameters without one. Partial: all other limits, positive time limits, and histories without time limits."
  },
  {
   "property": "C47",
   "status": "partial",
   "theorems": [
    "Mpc.Props.c47_cold_partial",
    "Mpc.Props.c47_cold_unscaled_partial",
    "Mpc.Props.c47_warm_shift",
    "Mpc.Props.c47_warm_sequences",
    "Mpc.Props.c47_scaled_violated"
   ],
   "note": "Violated for cold starts under scaling: the initial point holds the unscaled state. Partial: cold start in full for unit scalings; warm start shift proved for every history and every non-zero input scaling."
  },
  {
   "property": "C48",
   "status": "partial",
   "theorems": [
    "Mpc.Props.c48_failure_keeps_command",
    "Mpc.Props.c48_start_partial",
    "Mpc.Props.c48_start_violated"
   ],
   "note": "The kept command, flag, status and zero sequence are proved for every history. Starting point: violated when a failed cold start follows a solution and warm start is enabled later; proved otherwise."
  },
  {
   "property": "C49",
   "status": "partial",
   "theorems": [
    "Mpc.Props.c49_last_functions",
    "Mpc.Props.c49_groups_partial",
    "Mpc.Props.c49_one_copy_partial",
    "Mpc.Props.c49_objective_bound",
    "Mpc.Props.c49_model_returns_partial",
    "Mpc.Props.c49_duplicates_violated",
    "Mpc.Props.c49_returns_violated"
   ],
   "note": "Violated twice: every call of a constraint setter registers one more copy with NLopt, and the setters return true whatever NLopt says. Partial: the last function of each kind is the one used, in every history; which groups are registered; one copy when each constraint setter is called at most once; the flags when NLopt accepts."
  },
  {
   "property": "C50",
   "status": "proved",
   "theorems": [
    "Mpc.Props.c50_linear",
    "Mpc.Props.c50_nonlinear_output_bounds",
    "Mpc.Props.c50_nonlinear_only_output_bounds"
   ],
   "note": "Linear controller: the three unsupported setters throw, change nothing, and no other call throws."
  },
  {
   "property": "C51",
   "status": "proved",
   "theorems": [
    "Mpc.Props.c51_api_quotients",
    "Mpc.Props.c51_objective_quotients",
    "Mpc.Props.c51_ineq_quotients",
    "Mpc.Props.c51_eq_quotients",
    "Mpc.Props.c51_dynamics_quotients"
   ],
   "note": "Proved for arbitrary user functions: every gradient entry is a difference quotient at the same unperturbed trajectory that gives the value. c51_api_quotients states the same for complete histories of API calls, inside optimize."
  },
  {
   "property": "C52",
   "status": "partial",
   "theorems": [
    "Mpc.Props.c52_refused_partial",
    "Mpc.Props.c52_unguarded_partial",
    "Mpc.Props.c52_initialised_dimensions",
    "Mpc.Props.c52_invalid_refused",
    "Mpc.Props.c52_initialised_usable",
    "Mpc.Props.c52_violated"
   ],
   "note": "Violated: seven operations which use the dimensions do not check (Mapping::setInputScaling, the two bound getters, the slice forms of setReferences/setExogenousInputs, mapToOutput, get). Partial: every other one refuses after every history without initialisation; validity of the dimensions proved in full."
  },
  {
   "property": "C53",
   "status": "proved",
   "theorems": [
    "Mpc.Props.c53_objective_independent",
    "Mpc.Props.c53_ineq_independent",
    "Mpc.Props.c53_eq_independent",
    "Mpc.Props.c53_dynamics_independent"
   ],
   "note": "Proved: any two histories ending in the same configuration and measured state give the same values and (when asked for) gradients."
  },
  {
   "property": "C54",
   "status": "partial",
   "theorems": [
    "Mpc.Props.c54_osqp_violated",
    "Mpc.Props.c54_osqp_partial",
    "Mpc.Props.c54_nlopt"
   ],
   "note": "OSQP: violated on codes 3, 4 and -6; partial: every other code. NLopt: proved for every code."
  },
  {
   "property": "C55",
   "status": "partial",
   "theorems": [
    "Mpc.Props.c55_violated",
    "Mpc.Props.c55_constant_partial"
   ],
   "note": "Violated: the output of step k uses d_{k-1}. Partial: the claim for constant disturbances."
  },
  {
   "property": "C56",
   "status": "proved",
   "theorems": [
    "Mpc.Props.c56_last_result",
    "Mpc.Props.c56_setters_keep"
   ],
   "note": "Proved."
  },
  {
   "property": "C57",
   "status": "partial",
   "theorems": [
    "Mpc.Props.c57_harmless_partial",
    "Mpc.Props.c57_violated"
   ],
   "note": "Violated (whole-horizon input bounds with ch != ph, parameters of the other kind, rejected problems, short warm-start vectors). Partial: every history without those runs without undefined behaviour."
  },
  {
   "property": "C58",
   "status": "partial",
   "theorems": [
    "Mpc.Props.c58_sequences_partial",
    "Mpc.Props.c58_unscaled_partial",
    "Mpc.Props.c58_persist",
    "Mpc.Props.c58_last_result",
    "Mpc.Props.c58_first_state_violated"
   ],
   "note": "Violated: the first state of the reported sequence is scaled. Partial: everything else in every history; in full for unit state scaling of the measured components."
  },
  {
   "property": "C59",
   "status": "partial",
   "theorems": [
    "Mpc.Props.c59_no_fault_partial",
    "Mpc.Props.c59_dynamic_equality",
    "Mpc.Props.c59_wrong_parameters",
    "Mpc.Props.c59_no_equality",
    "Mpc.Props.c59_equality_violated"
   ],
   "note": "Violated: an equality constraint on a controller with run-time dimensions. Further general fault theorems: parameters of the wrong type, an equality function with no equality constraint (negative slices: see C44). Partial: every other history, whatever the solver does."
  },
  {
   "property": "C60",
   "status": "partial",
   "theorems": [
    "Mpc.Props.c60_alike_partial",
    "Mpc.Props.c60_equality_violated"
   ],
   "note": "Violated: setEqConFunction only works with compile-time dimensions. Partial: every history without it, for arbitrary arguments, including faults."
  },
  {
   "property": "C61",
   "status": "partial",
   "theorems": [
    "Mpc.Props.c61_construct_partial",
    "Mpc.Props.c61_long_control_horizon",
    "Mpc.Props.c61_violated"
   ],
   "note": "Violated: construction always fails when the control horizon is longer than the prediction horizon (general theorem). Partial: it succeeds otherwise."
  },
  {
   "property": "C62",
   "status": "proved",
   "theorems": [
    "Mpc.Props.c62_linear",
    "Mpc.Props.c62_linear_total",
    "Mpc.Props.c62_nonlinear",
    "Mpc.Props.c62_nonlinear_total",
    "Mpc.Props.c62_throwing",
    "Mpc.Props.c62_throwing_total"
   ],
   "note": "Proved for both controllers and all histories (the clock is an input). Totality: histories with statistics run exactly when they run without."
  },
  {
   "property": "C63",
   "status": "partial",
   "theorems": [
    "Mpc.Props.c63_coded_partial",
    "Mpc.Props.c63_violated",
    "Mpc.Props.c63_optimal_partial",
    "Mpc.Props.c63_feasible_partial"
   ],
   "note": "Violated: with a control horizon shorter than the prediction horizon one more command than documented is free, so the first command is not optimal. Partial: the exact optimal control problem the code solves, in every configuration; the documented claim for configurations without frozen commands, step-dependent input bounds or increment references and scalar constraints."
  },
  {
   "property": "C64",
   "status": "partial",
   "theorems": [
    "Mpc.Props.c64_quotient_partial",
    "Mpc.Props.c64_unscaled_partial",
    "Mpc.Props.c64_scaled_violated"
   ],
   "note": "Violated: bounds are not divided by the scaling factors, so with input scale 2 a command of twice the bound is returned. Partial: the quotients by the scaling respect the bounds, in every history; the claim in full for unit scaling."
  },
  {
   "property": "C65",
   "status": "partial",
   "theorems": [
    "Mpc.Props.c65_optimal_partial",
    "Mpc.Props.c65_scaled_violated"
   ],
   "note": "Violated: inputs both scaled and bounded. Partial: for unit state scaling and inputs which are unscaled or unbounded, the vector handed back is an exact solution of the solver problem if and only if the reported sequences are a best allowed plan."
  },
  {
   "property": "C66",
   "status": "proved",
   "theorems": [
    "Mpc.Props.c66_flag",
    "Mpc.Props.c66_not_feasible"
   ],
   "note": "Proved. Added after a seeded fault (counting a dual infeasible outcome as feasible) survived C20."
  },
  {
   "property": "C67",
   "status": "partial",
   "theorems": [
    "Mpc.Props.c67_eq_states_partial",
    "Mpc.Props.c67_small_partial",
    "Mpc.Props.c67_dynamics",
    "Mpc.Props.c67_objective_step_violated",
    "Mpc.Props.c67_ineq_step_violated",
    "Mpc.Props.c67_eq_input_step_violated"
   ],
   "note": "Violated for the objective and the inequality constraints (the step of state or input component j follows entry j of the whole matrix in storage order, e.g. the measured state) and for the inputs in the equality constraints (the last input sets all steps). Proved: equality constraints with respect to states and model equations, always; all of it while states and inputs are at most one in magnitude."
  },
  {
   "property": "C68",
   "status": "partial",
   "theorems": [
    "Mpc.Props.c68_objective_partial",
    "Mpc.Props.c68_ineq_partial",
    "Mpc.Props.c68_eq_accuracy",
    "Mpc.Props.c68_dynamics_accuracy",
    "Mpc.Props.c68_scaled_objective_violated",
    "Mpc.Props.c68_last_input_violated"
   ],
   "note": "Violated for the objective with a state scaling other than one (chain-rule factor missing, as C39) and for inequality constraints on the input of step ph (as C40). Proved with explicit error bounds: equality constraints and model equations in full, objective with unscaled states, inequality constraints which do not depend on the input of step ph."
  },
  {
   "property": "C69",
   "status": "proved",
   "theorems": [
    "Mpc.Props.c69_unique_solution",
    "Mpc.Props.c69_history_independent"
   ],
   "note": "Proved from C63 by strict convexity of the plan cost."
  },
  {
   "property": "C70",
   "status": "proved",
   "theorems": [
    "Mpc.Props.c70_keeps_rest",
    "Mpc.Props.c70_rest_is_solution"
   ],
   "note": "Proved for every equilibrium, including constant disturbances, limits and the code's shifted indices."
  },
  {
   "property": "C71",
   "status": "proved",
   "theorems": [
    "Mpc.Props.c71_weight_scale"
   ],
   "note": "Proved."
  },
  {
   "property": "C72",
   "status": "partial",
   "theorems": [
    "Mpc.Props.c72_cost_partial",
    "Mpc.Props.c72_violated"
   ],
   "note": "Violated in every unit: OSQP's objective lacks the constant of the completed square, a plan at its reference is reported with negative cost. Partial: reported cost = cost of the sequence minus the cost of the zero vector."
  },
  {
   "property": "C73",
   "status": "proved",
   "theorems": [
    "Mpc.Props.c73_feasible",
    "Mpc.Props.c73_cost"
   ],
   "note": "Proved for every relaxation of state, input, output and scalar limits."
  },
  {
   "property": "C74",
   "status": "partial",
   "theorems": [
    "Mpc.Props.c74_alone_partial",
    "Mpc.Props.c74_runs_partial",
    "Mpc.Props.c74_frame_partial",
    "Mpc.Props.c74_linear",
    "Mpc.Props.c74_linear_history",
    "Mpc.Props.c74_nonlinear_partial",
    "Mpc.Props.c74_frame_violated",
    "Mpc.Props.c74_destroy_violated",
    "Mpc.Props.c74_uncopied",
    "Mpc.Props.c74_frame_uncopied",
    "Mpc.Props.c74_nonlinear_uncopied"
   ],
   "note": "Linear controllers (which cannot be copied): proved for every program. Nonlinear ones: proved for programs without copies; violated with copies, which share one optimizer: a call on the copy replaces the results of the original, and destroying one leaves the other with a dangling pointer. c74_uncopied, c74_frame_uncopied, c74_nonlinear_uncopied: in programs with copies the claim holds of every controller which is not itself copied or assigned."
  },
  {
   "property": "C75",
   "status": "partial",
   "theorems": [
    "Mpc.Props.c75_names_partial",
    "Mpc.Props.c75_assign_violated",
    "Mpc.Props.c75_linear_violated",
    "Mpc.Props.c75_linear_partial",
    "Mpc.Props.c75_nonlinear_violated",
    "Mpc.Props.c75_nonlinear_partial"
   ],
   "note": "Linear: violated, no destructor releases the optimizer (one per constructed controller stays allocated); nothing is released twice. Nonlinear: proved without copies; violated with copies (double release). With copies: an optimizer is allocated exactly until its controller is destroyed by whichever name, after which destroying another name faults (c75_names_partial); an assignment loses the optimizer of the controller assigned to, which is never released (c75_assign_violated)."
  },
  {
   "property": "C76",
   "status": "proved",
   "theorems": [
    "Mpc.Props.c76_solutions",
    "Mpc.Props.c76_command"
   ],
   "note": "Proved for every nonzero factor, including negative ones."
  },
  {
   "property": "C77",
   "status": "proved",
   "theorems": [
    "Mpc.Props.c77_solutions",
    "Mpc.Props.c77_command"
   ],
   "note": "Proved for every map of states, invertible or not."
  },
  {
   "property": "C78",
   "status": "proved",
   "theorems": [
    "Mpc.Props.c78_prediction"
   ],
   "note": "Proved for every number of steps; limits with the code's indices (C01-C08)."
  },
  {
   "property": "C79",
   "status": "proved",
   "theorems": [
    "Mpc.Props.c79_rests_forever"
   ],
   "note": "Proved for every number of steps."
  },
  {
   "property": "C80",
   "status": "proved",
   "theorems": [
    "Mpc.Props.c80_objective",
    "Mpc.Props.c80_inequality",
    "Mpc.Props.c80_equality",
    "Mpc.Props.c80_model"
   ],
   "note": "Proved for all four callbacks; what the gradients approximate is C38-C41, C51-C53."
  },
  {
   "property": "C81",
   "status": "proved",
   "theorems": [
    "Mpc.Props.c81_solutions",
    "Mpc.Props.c81_command"
   ],
   "note": "Proved. The freezing of the commands after the control horizon is linear and stays; limits are excluded because they are not linear."
  },
  {
   "property": "C82",
   "status": "proved",
   "theorems": [
    "Mpc.Props.c82_solvable",
    "Mpc.Props.c82_law"
   ],
   "note": "Proved over any ordered field, by nondegeneracy of the cost on the frozen plans; OSQP is an oracle assumed exact."
  },
  {
   "property": "C83",
   "status": "proved",
   "theorems": [
    "Mpc.Props.c83_agree"
   ],
   "note": "Proved for tasks without limits on outputs, with constant limits on the commands and unit input scaling beyond the first step (the conditions under which C63 and C65 hold); both solvers are oracles assumed exact."
  },
  {
   "property": "C84",
   "status": "proved",
   "theorems": [
    "Mpc.Props.c84_residual",
    "Mpc.Props.c84_reported",
    "Mpc.Props.c84_plant"
   ],
   "note": "Proved, as an equivalence (no row of the problem is scaled) and for the reported sequence and the plant."
  },
  {
   "property": "C85",
   "status": "proved",
   "theorems": [
    "Mpc.Props.c85_command"
   ],
   "note": "Proved by strong convexity along the segment to the exact plan; stated with squares to stay within ordered fields."
  },
  {
   "property": "C86",
   "status": "proved",
   "theorems": [
    "Mpc.Props.c86_next",
    "Mpc.Props.c86_recursive_feasibility",
    "Mpc.Props.c86_terminal_equality"
   ],
   "note": "Proved by induction over the steps: the shifted plan satisfies the next problem. Includes the terminal-equality special case."
  },
  {
   "property": "C87",
   "status": "proved",
   "theorems": [
    "Mpc.Props.c87_closed_loop_cost",
    "Mpc.Props.c87_converges"
   ],
   "note": "Proved: the best cost is a Lyapunov function of the loop. Convergence needs an Archimedean field (such as the rationals or reals)."
  },
  {
   "property": "C88",
   "status": "proved",
   "theorems": [
    "Mpc.Props.c88_reported",
    "Mpc.Props.c88_later_calls",
    "Mpc.Props.c88_evaluations",
    "Mpc.Props.c88_ordinary",
    "Mpc.Props.c88_runs"
   ],
   "note": "Proved for exceptions derived from std::exception. c88_ordinary reduces such histories to those without exceptions."
  },
  {
   "property": "C89",
   "status": "partial",
   "theorems": [
    "Mpc.Props.c89_escaped_partial",
    "Mpc.Props.c89_next_failure",
    "Mpc.Props.c89_sequence_violated"
   ],
   "note": "Violated: the output function is called after the states and inputs of the sequence have been overwritten and before the outputs and the result are (NLOptimizer.hpp:563-606), so the sequence mixes two calls. Partial: exactly what is kept and what is new."
  },
  {
   "property": "C90",
   "status": "partial",
   "theorems": [
    "Mpc.Props.c90_linear_partial",
    "Mpc.Props.c90_text_partial",
    "Mpc.Props.c90_linear_violated",
    "Mpc.Props.c90_nonlinear_partial",
    "Mpc.Props.c90_nonlinear_violated"
   ],
   "note": "Violated: setInputScale and setStateScale of the linear controller throw without an error message, and setStateSpaceFunction of the nonlinear one returns false with a message of type DETAIL only. Partial: every call of the linear controller which returns false, and every other refusal of the nonlinear one, leaves exactly its one message."
  },
  {
   "property": "C91",
   "status": "partial",
   "theorems": [
    "Mpc.Props.c91_text_partial",
    "Mpc.Props.c91_single_partial",
    "Mpc.Props.c91_transparent",
    "Mpc.Props.c91_runs",
    "Mpc.Props.c91_none",
    "Mpc.Props.c91_settings_violated"
   ],
   "note": "Violated: the logger is a singleton, so that the settings of one controller apply to all (Logger.hpp:50-54). Partial: the last setting made on any controller decides; programs with one controller meet the claim. The rest (transparency, level NONE, totality) is proved."
  },
  {
   "property": "C92",
   "status": "partial",
   "theorems": [
    "Mpc.Props.c92_linear",
    "Mpc.Props.c92_linear_text",
    "Mpc.Props.c92_nonlinear",
    "Mpc.Props.c92_nonlinear_text",
    "Mpc.Props.c92_linear_violated",
    "Mpc.Props.c92_nonlinear_violated"
   ],
   "note": "The reports are proved. Violated: a failed optimize leaves no error message (NLOptimizer.hpp:526-540 uses DETAIL, LOptimizer.hpp has no message for the status), so that nothing shows at level ALERT."
  },
  {
   "property": "C93",
   "status": "proved",
   "theorems": [
    "Mpc.Props.c93_one_step",
    "Mpc.Props.c93_drift",
    "Mpc.Props.c93_exact"
   ],
   "note": "Proved for discrete models; unit state scaling is part of the statement (with other scalings the first state is wrong, C35)."
  },
  {
   "property": "C94",
   "status": "proved",
   "theorems": [
    "Mpc.Props.c94_next",
    "Mpc.Props.c94_recursive_feasibility"
   ],
   "note": "Proved: the reported plan, moved one step ahead and prolonged, is allowed in the next step; induction over the steps. Each function set once and accepted, and scaled inputs unbounded (otherwise C49, C64 get in the way)."
  },
  {
   "property": "C95",
   "status": "proved",
   "theorems": [
    "Mpc.Props.c95_descends",
    "Mpc.Props.c95_closed_loop_cost",
    "Mpc.Props.c95_converges"
   ],
   "note": "Proved: the cost of the reported plan falls by the cost of the step made, up to the accuracy of the solver; telescoping."
  },
  {
   "property": "C96",
   "status": "proved",
   "theorems": [
    "Mpc.Props.c96_solvable",
    "Mpc.Props.c96_no_worse",
    "Mpc.Props.c96_inactive"
   ],
   "note": "Proved from the equivalence of solver vectors and allowed plans, under the conditions under which C65 holds."
  },
  {
   "property": "C97",
   "status": "proved",
   "theorems": [
    "Mpc.Props.c97_task"
   ],
   "note": "Proved under the conditions under which C65 holds; an exact answer is assumed, the path of the solver may differ."
  },
  {
   "property": "C98",
   "status": "proved",
   "theorems": [
    "Mpc.Props.c98_order"
   ],
   "note": "Proved under the conditions under which C65 holds."
  },
  {
   "property": "C99",
   "status": "proved",
   "theorems": [
    "Mpc.Props.c99_as_if",
    "Mpc.Props.c99_evaluations",
    "Mpc.Props.c99_objective",
    "Mpc.Props.c99_runs"
   ],
   "note": "Proved: the abstract state of the controller depends on the stored functions only through the configuration, which is read in the environment of the evaluation; the environment is constant within one callback and between the feasibility check and the reported outputs. (examples/ugv_ex.cpp works this way with v_pref, which it leaves uninitialised for the first optimize.)"
  },
  {
   "property": "C100",
   "status": "partial",
   "theorems": [
    "Mpc.Props.c100_writes_controllers",
    "Mpc.Props.c100_writes_logger",
    "Mpc.Props.c100_reads_logger",
    "Mpc.Props.c100_only_logger_partial",
    "Mpc.Props.c100_quiet_partial",
    "Mpc.Props.c100_messages_race",
    "Mpc.Props.c100_linear",
    "Mpc.Props.c100_nonlinear",
    "Mpc.Props.c100_violated"
   ],
   "note": "Violated: Logger is one unsynchronised object, and every message, of whatever type and at whatever level, writes its member currentType (Logger.hpp:75); two threads which both call optimize (LMPC), or both construct an NLMPC, race in every schedule. Partial: the logger and its stream are the only memory two threads ever have in common, and there is no race when at most one thread writes messages or sets the logger. That the recorded accesses are all an operation changes and depends on is proved too (c100_writes_*, c100_reads_*)."
  },
  {
   "property": "C101",
   "status": "proved",
   "theorems": [
    "Mpc.Props.c101_whole_actions",
    "Mpc.Props.c101_as_alone",
    "Mpc.Props.c101_runs"
   ],
   "note": "Proved for sequentially consistent execution of the steps (which C++ does not promise once there is a race, see C100): simulation between the shared world and a world of the thread's own, up to the addresses of the optimizers; copies included. A schedule which switches threads only between actions is moreover equal, log and settings included, to the single-threaded program with the same actions in the same order."
  },
  {
   "property": "C102",
   "status": "partial",
   "theorems": [
    "Mpc.Props.c102_undivided_partial",
    "Mpc.Props.c102_uniform_partial",
    "Mpc.Props.c102_lost_violated",
    "Mpc.Props.c102_leak_violated"
   ],
   "note": "Violated: operator<< compares the level with the member currentType, which the log() of another thread overwrites: an error message at level NORMAL loses its text, or a DETAIL message below the level is printed. Partial: when all messages are visible (for instance at level DEEP) or none is (NONE), nothing is lost or added, tags and texts stay in one piece and keep the order of each thread. The claim holds in full for every schedule which switches threads only between actions (one lock around every call)."
  },
  {
   "property": "C103",
   "status": "proved",
   "theorems": [
    "Mpc.Props.c103_feasible_set_exact",
    "Mpc.Props.c103_equalities",
    "Mpc.Props.c103_bounds_ordered"
   ],
   "note": "Proved over an abstract monotone, odd, idempotent rounding with relative error eps; Rounding.binary 53 (IEEE round to nearest even, unbounded exponents) is an instance. Equality of the feasible sets, not an approximation."
  },
  {
   "property": "C104",
   "status": "proved",
   "theorems": [
    "Mpc.Props.c104_near_plan",
    "Mpc.Props.c104_gamma"
   ],
   "note": "Proved with the error gamma(ndu + 2) * B, B a bound on the disturbance terms without cancellations; gamma n lies between n eps and 2 n eps (c104_gamma)."
  },
  {
   "property": "C105",
   "status": "proved",
   "theorems": [
    "Mpc.Props.c105_objective",
    "Mpc.Props.c105_near_optimal"
   ],
   "note": "Proved; the reference of the increments is the one the code pairs (see C03)."
  },
  {
   "property": "C106",
   "status": "partial",
   "theorems": [
    "Mpc.Props.c106_nearly_convex_partial",
    "Mpc.Props.c106_exact_arithmetic",
    "Mpc.Props.c106_selecting_partial",
    "Mpc.Props.c106_convex_violated"
   ],
   "note": "Violated in every binary arithmetic with at least 3 digits, double included: with y = x + (1 + 2^(1-p)) x' the entry (1 + 2^(1-p))^2 is rounded down, and the Hessian handed to OSQP has a negative direction. Partial: positive semidefinite up to gamma(nu + ny + 2) times the curvature without cancellations; exactly positive semidefinite when the outputs select states (coefficients 0, 1, -1, no state read twice), and in exact arithmetic."
  },
  {
   "property": "C107",
   "status": "proved",
   "theorems": [
    "Mpc.Props.c107_copied",
    "Mpc.Props.c107_outputs",
    "Mpc.Props.c107_plant"
   ],
   "note": "Proved; the last part is C84 transferred to floating-point numbers."
  },
  {
   "property": "C108",
   "status": "partial",
   "theorems": [
    "Mpc.Props.c108_flag_partial",
    "Mpc.Props.c108_nearly_partial",
    "Mpc.Props.c108_solver_partial",
    "Mpc.Props.c108_representable_partial",
    "Mpc.Props.c108_tolerance_violated"
   ],
   "note": "Violated: the tolerance parameters are `const float`; the default 1e-10 becomes 14411519 * 2^-57 > 1e-10, so a constraint violated by more than 1e-10 is flagged feasible. Partial: the flag and the solver use the tolerance rounded to single precision (relative error 2^-24), exact for representable tolerances."
  },
  {
   "property": "C109",
   "status": "partial",
   "theorems": [
    "Mpc.Props.c109_extremes_partial",
    "Mpc.Props.c109_average_partial",
    "Mpc.Props.c109_nearly_between_partial",
    "Mpc.Props.c109_no_overflow_partial",
    "Mpc.Props.c109_average_violated"
   ],
   "note": "Violated for double: after three solutions of 5 ms each the reported average is below the reported minimum. Partial: number, minimum and maximum are exact; total and average up to (1 +- eps)^n and (1 +- eps)^(4n), for every sequence and precision."
  },
  {
   "property": "C110",
   "status": "proved",
   "theorems": [
    "Mpc.Props.c110_objective",
    "Mpc.Props.c110_inequality",
    "Mpc.Props.c110_equality",
    "Mpc.Props.c110_exact",
    "Mpc.Props.c110_without_rounding"
   ],
   "note": "For any rounding with eps <= 1/8 (double included), after any exact history and any rounded evaluations. The twin model rounds after every operation; with the identity it is the exact model (c110_without_rounding)."
  },
  {
   "property": "C111",
   "status": "proved",
   "theorems": [
    "Mpc.Props.c111_inequality",
    "Mpc.Props.c111_equality",
    "Mpc.Props.c111_dynamics"
   ],
   "note": "Inequality, equality and model equations: central differences whose two points differ in the perturbed entry only."
  },
  {
   "property": "C112",
   "status": "partial",
   "theorems": [
    "Mpc.Props.c112_objective_partial",
    "Mpc.Props.c112_objective_violated"
   ],
   "note": "Violated for double: the objective is differenced against a value computed before the perturbations, and perturbing and restoring an entry loses small numbers. Partial: slack exactly; states and inputs up to the variation of the objective over 7 eps M, divided by the step."
  },
  {
   "property": "C113",
   "status": "partial",
   "theorems": [
    "Mpc.Props.c113_inequality_partial",
    "Mpc.Props.c113_equality_partial",
    "Mpc.Props.c113_objective_partial",
    "Mpc.Props.c113_slack_violated"
   ],
   "note": "Violated for double: the slack step is (2^-26)^2 at slack 0, absorbed by constraint values of 4 and more, so the slack derivative is 0. Partial: explicit bounds for every entry of inequality (not using the last input), equality and objective gradients."
  },
  {
   "property": "C114",
   "status": "partial",
   "theorems": [
    "Mpc.Props.c114_residual_partial",
    "Mpc.Props.c114_discrete_partial",
    "Mpc.Props.c114_continuous_violated"
   ],
   "note": "Violated for continuous models (a state of 2^60 which should grow by 1). Partial: zero exactly when the equation holds for discrete models; relative error of two roundings (discrete) and six roundings of the terms (continuous)."
  },
  {
   "property": "C115",
   "status": "proved",
   "theorems": [
    "Mpc.Props.c115_model_gradients"
   ],
   "note": "Error bounds for all non-zero entries; with C111 this covers the whole row."
  },
  {
   "property": "C116",
   "status": "partial",
   "theorems": [
    "Mpc.Props.c116_tested_partial",
    "Mpc.Props.c116_stored_partial",
    "Mpc.Props.c116_beyond_partial",
    "Mpc.Props.c116_split_partial",
    "Mpc.Props.c116_violated",
    "Mpc.Props.c116_abort_violated"
   ],
   "note": "Violated: no size is tested by the library. Partial: a call on whose sizes the code insists (through an Eigen assertion) is never carried out with wrong ones (c116_tested_partial); whole-horizon references and disturbances are accepted with any sizes and, if unusable, no later optimize returns (c116_stored_partial), superfluous columns being ignored (c116_beyond_partial); scalar-constraint multipliers are only measured together (c116_split_partial)."
  },
  {
   "property": "C117",
   "status": "partial",
   "theorems": [
    "Mpc.Props.c117_linear_partial",
    "Mpc.Props.c117_any_call_partial",
    "Mpc.Props.c117_seen_partial",
    "Mpc.Props.c117_getters_partial",
    "Mpc.Props.c117_programs_partial",
    "Mpc.Props.c117_vectors_partial",
    "Mpc.Props.c117_violated",
    "Mpc.Props.c117_nonlinear_partial",
    "Mpc.Props.c117_nl_any_call_partial",
    "Mpc.Props.c117_nl_programs_partial",
    "Mpc.Props.c117_nl_seen_partial",
    "Mpc.Props.c117_nl_getters_partial",
    "Mpc.Props.c117_defaults_partial",
    "Mpc.Props.c117_nonlinear_violated"
   ],
   "note": "Violated: whole-horizon references cannot be set (the slice overload is bound twice; TypeError), and setting an equality constraint ends the program (run-time dimensions); solver parameters cannot be constructed and default tolerances are not exported. Partial: every other call has the effect and the result of the C++ call (c117_linear_partial, c117_nonlinear_partial), any Python call whatever is a C++ call of the same method or changes nothing, and any Python program is a C++ program (c117_programs_partial, c117_nl_programs_partial)."
  },
  {
   "property": "C118",
   "status": "partial",
   "theorems": [
    "Mpc.Props.c118_report_partial",
    "Mpc.Props.c118_format_partial",
    "Mpc.Props.c118_report_violated",
    "Mpc.Props.c118_format_violated",
    "Mpc.Props.c118_unused_partial",
    "Mpc.Props.c118_sample_violated",
    "Mpc.Props.c118_shares_partial"
   ],
   "note": "Violated: once there is a solution the total time is printed with two decimals (setprecision(2) of the percentages stays in force: 4 ms in total are printed as 0.00), and the stream stays in fixed notation with two decimals. Partial: the text is otherwise the report, each numeral the nearest one (c118_report_partial, for the text read back as numbers), the format left behind, what is printed before the first solution (the largest double and its negative), the printed shares add to 100 up to rounding."
  },
  {
   "property": "C119",
   "status": "partial",
   "theorems": [
    "Mpc.Props.c119_right_partial",
    "Mpc.Props.c119_wrong_partial",
    "Mpc.Props.c119_flag_partial",
    "Mpc.Props.c119_needs",
    "Mpc.Props.c119_reported_violated",
    "Mpc.Props.c119_unseen_violated"
   ],
   "note": "Violated: the length is never compared with the dimension. An evaluation of the function breaks a precondition of Eigen (c119_reported_violated) and the feasibility check takes the entries that there are, so an inequality function which returns an empty array makes every result feasible (c119_unseen_violated). Partial: right lengths give the same outcome (c119_right_partial), no optimize which needs a function that always returns a wrong length returns (c119_wrong_partial), what the flag means for any lengths (c119_flag_partial)."
  },
  {
   "property": "C120",
   "status": "proved",
   "theorems": [
    "Mpc.Props.c120_linear",
    "Mpc.Props.c120_nonlinear",
    "Mpc.Props.c120_loop",
    "Mpc.Props.c120_flagged",
    "Mpc.Props.c120_script",
    "Mpc.Props.c120_vanderpol",
    "Mpc.Props.c120_oscillators",
    "Mpc.Props.c120_python",
    "Mpc.Props.c120_python_true",
    "Mpc.Props.c120_quadrotor"
   ],
   "note": "c120_linear and c120_nonlinear are about arbitrary programs, c120_loop about every control loop, c120_script and c120_flagged about the result of a loop; the other theorems are the example programs. The plant of a loop is any function of what was shown."
  },
  {
   "property": "C121",
   "status": "proved",
   "theorems": [
    "Mpc.Props.c121_program",
    "Mpc.Props.c121_flagged",
    "Mpc.Props.c121_unflagged",
    "Mpc.Props.c121_script",
    "Mpc.Props.c121_ugv_model",
    "Mpc.Props.c121_ugv"
   ],
   "note": "c121_program and c121_script are about arbitrary programs, c121_flagged about any history. The search itself is an oracle: the theorems say what a flag means, not that a feasible sequence is found. The example reads the preferred velocity before it sets it (ugv_ex.cpp:158 after 146); c121_ugv holds for any contents."
  },
  {
   "property": "C122",
   "status": "proved",
   "theorems": [
    "Mpc.Props.c122_default_constraints",
    "Mpc.Props.c122_constraints",
    "Mpc.Props.c122_output_mapping",
    "Mpc.Props.c122_mapping_dim",
    "Mpc.Props.c122_unwrap",
    "Mpc.Props.c122_slices",
    "Mpc.Props.c122_no_user_constraints",
    "Mpc.Props.c122_model_equations",
    "Mpc.Props.c122_user_inequalities",
    "Mpc.Props.c122_user_equalities",
    "Mpc.Props.c122_sum_of_squares",
    "Mpc.Props.c122_default_nl_bounds",
    "Mpc.Props.c122_nl_bounds",
    "Mpc.Props.c122_log_levels",
    "Mpc.Props.c122_log_prefix",
    "Mpc.Props.c122_log_reset",
    "Mpc.Props.c122_stats_cleared",
    "Mpc.Props.c122_status_names",
    "Mpc.Props.c122_one_solution",
    "Mpc.Props.c122_three_solutions",
    "Mpc.Props.c122_discretize_nilpotent",
    "Mpc.Props.c122_discretize_double"
   ],
   "note": "The test 'scalar constraints' of the linear controller is C07. The tests that run a whole controller (convergence of examples) are not part of this property: see C120 and C121. The test of the deviation asserts 0.081 with margin 0.01 for 0.1, 0.2, 0.3; the example beside c122_three_solutions shows that the sample deviation 0.1 would fail it, so the test enshrines the defect of C26. The text of a status outside the enumeration is not modelled."
  },
  {
   "property": "C123",
   "status": "partial",
   "theorems": [
    "Mpc.Props.c123_total",
    "Mpc.Props.c123_numbers",
    "Mpc.Props.c123_spread",
    "Mpc.Props.c123_infinite_unweighted",
    "Mpc.Props.c123_step_local",
    "Mpc.Props.c123_unused_partial",
    "Mpc.Props.c123_unused_asked",
    "Mpc.Props.c123_configured",
    "Mpc.Props.c123_signals_unused",
    "Mpc.Props.c123_nan_reference_violated",
    "Mpc.Props.c123_infinite_reference_violated",
    "Mpc.Props.c123_disturbance_violated"
   ],
   "note": "Violated for NaN and infinite values (three claims: NaN reference, infinite reference, NaN disturbance); proved for numbers (c123_unused_partial in doubles, c123_unused_asked at the API in exact arithmetic), and the exact reach of a NaN is proved (c123_spread). The settings (model, weights, bounds) are numbers or infinite bounds; what OSQP does with NaN is outside the model. Finite arithmetic is exact here and the two zeros are identified. The increment reference of step k is weighed with the weight of step k+1 (and that of step 0 also with that of step 0), see duUsed."
  },
  {
   "property": "C124",
   "status": "partial",
   "theorems": [
    "Mpc.Props.c124_cold_partial",
    "Mpc.Props.c124_warm_partial",
    "Mpc.Props.c124_loop_partial",
    "Mpc.Props.c124_refused_forever",
    "Mpc.Props.c124_measured_violated",
    "Mpc.Props.c124_shift_violated"
   ],
   "note": "Violated in both forms: c124_measured_violated (measured state outside the limits of later steps, problem solvable) and c124_shift_violated (limits on the first step only, second call of a loop refused). Proved: iff-characterisations for cold and warm start, the loop theorem for nested limits, and that refusals repeat for ever. The rule of nlopt_optimize about starting points is the specification StartRule; it is documented NLopt behaviour, not part of /repo."
  },
  {
   "property": "C125",
   "status": "partial",
   "theorems": [
    "Mpc.Props.c125_rounded_start",
    "Mpc.Props.c125_unscaled_partial",
    "Mpc.Props.c125_near",
    "Mpc.Props.c125_margin_partial",
    "Mpc.Props.c125_refused_forever",
    "Mpc.Props.c125_saturated_violated"
   ],
   "note": "Violated in double for scalings which are no powers of two (c125_saturated_violated: an input at its bound). Proved: what exactly is rounded (c125_rounded_start), the error bound, exactness for scalings commuting with rounding (1, powers of two: double_pow), a margin condition, and that such refusals repeat for ever. No overflow or underflow."
  },
  {
   "property": "C126",
   "status": "partial",
   "theorems": [
    "Mpc.Props.c126_objective_partial",
    "Mpc.Props.c126_inequality_partial",
    "Mpc.Props.c126_equality_partial",
    "Mpc.Props.c126_discrete_partial",
    "Mpc.Props.c126_continuous_partial",
    "Mpc.Props.c126_objective_numbers",
    "Mpc.Props.c126_objective_nan",
    "Mpc.Props.c126_inequality_rows",
    "Mpc.Props.c126_equality_rows",
    "Mpc.Props.c126_model_steps",
    "Mpc.Props.c126_numbers_objective",
    "Mpc.Props.c126_numbers_inequality",
    "Mpc.Props.c126_numbers_equality",
    "Mpc.Props.c126_numbers_model",
    "Mpc.Props.c126_objective_violated",
    "Mpc.Props.c126_model_violated"
   ],
   "note": "Violated (c126_objective_violated: another input's probe; c126_model_violated: another component of the state equation). Proved: exactly which quotients each value and derivative comes from, for objective, constraints and discrete/continuous state equations (c126_*_partial), consequences, and agreement with the exact model. Numbers are computed exactly here (no rounding, no overflow); decision vector and settings are numbers."
  },
  {
   "property": "C127",
   "status": "partial",
   "theorems": [
    "Mpc.Props.c127_near_partial",
    "Mpc.Props.c127_limits_partial",
    "Mpc.Props.c127_margin_partial",
    "Mpc.Props.c127_limits_violated",
    "Mpc.Props.c127_slack_violated"
   ],
   "note": "Violated at the limits (c127_limits_violated: a state at its upper bound; c127_slack_violated: slack zero). Proved: widened limits (c127_limits_partial), distance from the limits (c127_margin_partial) and the general form for any scaling (c127_near_partial)."
  },
  {
   "property": "C128",
   "status": "partial",
   "theorems": [
    "Mpc.Props.c128_start_partial",
    "Mpc.Props.c128_evaluations_partial",
    "Mpc.Props.c128_input_zero",
    "Mpc.Props.c128_input_stuck",
    "Mpc.Props.c128_state_zero",
    "Mpc.Props.c128_state_derivatives",
    "Mpc.Props.c128_state_stuck",
    "Mpc.Props.c128_start_violated",
    "Mpc.Props.c128_model_violated"
   ],
   "note": "Violated by zero scalings (c128_start_violated, c128_model_violated); what happens with them is proved for every history: c128_input_zero, c128_input_stuck, c128_state_zero (values), c128_state_derivatives, c128_state_stuck. Proved without zeros: c128_start_partial, c128_evaluations_partial."
  },
  {
   "property": "C129",
   "status": "partial",
   "theorems": [
    "Mpc.Props.c129_place_partial",
    "Mpc.Props.c129_spread",
    "Mpc.Props.c129_spread_violated"
   ],
   "note": "Violated (c129_spread_violated; c129_spread is what happens instead, for every history). Proved: c129_place_partial."
  },
  {
   "property": "C130",
   "status": "proved",
   "theorems": [
    "Mpc.Props.c130_objective",
    "Mpc.Props.c130_inequalities",
    "Mpc.Props.c130_equalities",
    "Mpc.Props.c130_model",
    "Mpc.Props.c130_exceptions",
    "Mpc.Props.c130_counts"
   ],
   "note": "c130_objective, c130_inequalities, c130_equalities, c130_model give the calls as lists and that the programs compute what Objective.lean and Constraints.lean do; c130_counts their numbers; c130_exceptions where exceptions leave."
  },
  {
   "property": "C131",
   "status": "partial",
   "theorems": [
    "Mpc.Props.c131_measured_partial",
    "Mpc.Props.c131_values_partial",
    "Mpc.Props.c131_not_held",
    "Mpc.Props.c131_not_measured",
    "Mpc.Props.c131_held_violated",
    "Mpc.Props.c131_measured_violated"
   ],
   "note": "Violated (c131_held_violated, c131_measured_violated; c131_not_held and c131_not_measured say that it happens in every history). Proved: c131_measured_partial, c131_values_partial."
  },
  {
   "property": "C132",
   "status": "proved",
   "theorems": [
    "Mpc.Props.c132_trace",
    "Mpc.Props.c132_plan",
    "Mpc.Props.c132_returns",
    "Mpc.Props.c132_search_throws",
    "Mpc.Props.c132_check_throws",
    "Mpc.Props.c132_report_throws",
    "Mpc.Props.c132_contained",
    "Mpc.Props.c132_tail"
   ],
   "note": "c132_trace gives the calls as a list and that the program is optimize; c132_plan the arguments after the search; c132_tail their number; c132_returns, c132_search_throws, c132_check_throws, c132_report_throws the exceptions, by the phase of the first one; c132_contained that none leaves with inequality constraints. How NLopt reacts to a throwing callback (it asks nothing more and throws) is assumed, as in Throwing.lean."
  },
  {
   "property": "C133",
   "status": "proved",
   "theorems": [
    "Mpc.Props.c133_total",
    "Mpc.Props.c133_answers",
    "Mpc.Props.c133_calls",
    "Mpc.Props.c133_result",
    "Mpc.Props.c133_task",
    "Mpc.Props.c133_independent",
    "Mpc.Props.c133_memory"
   ],
   "note": "c133_total and c133_answers: no fault; c133_task, c133_independent: what the solver is given, compared with functions without memory and between any two sets of functions; c133_calls: the calls up to the outputs shown (bare); c133_result: the result; c133_memory: functions whose memory does not show. Proved on the programs of C130 and C132 by running them with a memory."
  },
  {
   "property": "C134",
   "status": "proved",
   "theorems": [
    "Mpc.Props.c134_total",
    "Mpc.Props.c134_answers",
    "Mpc.Props.c134_setters",
    "Mpc.Props.c134_calls",
    "Mpc.Props.c134_first_throw",
    "Mpc.Props.c134_no_throw",
    "Mpc.Props.c134_caught",
    "Mpc.Props.c134_escaped",
    "Mpc.Props.c134_result",
    "Mpc.Props.c134_task",
    "Mpc.Props.c134_memory",
    "Mpc.Props.c134_history",
    "Mpc.Props.c134_escape_despite_inequalities",
    "Mpc.Props.c134_agrees_returning",
    "Mpc.Props.c134_agrees_memoryless"
   ],
   "note": "c134_total, c134_answers: no fault; c134_calls, c134_first_throw: the calls and the one which throws; c134_caught, c134_escaped, c134_no_throw, c134_result: the three ways to end; c134_task: what the solver is given; c134_memory, c134_history, c134_setters: what is remembered; c134_escape_despite_inequalities: an escaping exception which C132 excludes for functions without memory. Exceptions not derived from std::exception are not caught by the code at all and are not modelled. c134_agrees_returning, c134_agrees_memoryless: the model runs as those of C133 and C132 where they overlap."
  },
  {
   "property": "C135",
   "status": "partial",
   "theorems": [
    "Mpc.Props.c135_reads",
    "Mpc.Props.c135_seen",
    "Mpc.Props.c135_last_result",
    "Mpc.Props.c135_no_output_partial",
    "Mpc.Props.c135_others_partial",
    "Mpc.Props.c135_returned",
    "Mpc.Props.c135_kept",
    "Mpc.Props.c135_sequence_violated"
   ],
   "note": "c135_reads, c135_seen: which reports every call sees, for every way the optimize may end; c135_last_result; c135_no_output_partial, c135_others_partial: when the claim holds; c135_returned, c135_kept: when reports change. c135_sequence_violated: the output function sees new states and inputs with old outputs (NLOptimizer.hpp:589-591 writes two members before it calls the function for the third). Functions which call optimize or a setter of their own controller are not modelled."
  },
  {
   "property": "C136",
   "status": "partial",
   "theorems": [
    "Mpc.Props.c136_only_logger_partial",
    "Mpc.Props.c136_quiet_partial",
    "Mpc.Props.c136_messages_race",
    "Mpc.Props.c136_linear",
    "Mpc.Props.c136_as_alone",
    "Mpc.Props.c136_runs",
    "Mpc.Props.c136_whole_actions",
    "Mpc.Props.c136_violated",
    "Mpc.Props.c136_copies_violated"
   ],
   "note": "Violated: c136_violated (two threads which only let a linear controller each optimize race on the logger; c136_linear: in every schedule which lets them finish; c136_messages_race: so do any two threads which write a message), c136_copies_violated (a nonlinear controller and its copy, one setter call each, no message: a race on the shared optimizer). Partial: c136_only_logger_partial (if the set-up makes no copies across threads, a race can only concern the logger), c136_quiet_partial (no race if at most one of the threads writes messages or sets the logger). Proved: c136_as_alone, c136_runs, c136_whole_actions. C100-C102 are the case without set-up."
  },
  {
   "property": "C137",
   "status": "partial",
   "theorems": [
    "Mpc.Props.c137_uses",
    "Mpc.Props.c137_optimize",
    "Mpc.Props.c137_program",
    "Mpc.Props.c137_linear",
    "Mpc.Props.c137_nonlinear_partial",
    "Mpc.Props.c137_answers",
    "Mpc.Props.c137_sound_optimize",
    "Mpc.Props.c137_sound",
    "Mpc.Props.c137_transparent",
    "Mpc.Props.c137_nonlinear_uncopied"
   ],
   "note": "c137_uses (over a whole history), c137_optimize (within one call), c137_program (the steps are an ordinary program), c137_linear (C74 and with it all properties of histories apply to linear controllers inside), c137_nonlinear_partial (likewise for nonlinear controllers inside; missing: programs which copy them, as in C74), c137_nonlinear_uncopied (the same in programs with copies, for a controller which is not itself copied), c137_sound, c137_sound_optimize (no fault), c137_answers, c137_transparent (the outer controller sees the answers only). The functions do not call setters or optimize of the controller which calls them; an inner step which faults counts as an exception after which the inner controllers are lost."
  },
  {
   "property": "C138",
   "status": "proved",
   "theorems": [
    "Mpc.Props.c138_alone",
    "Mpc.Props.c138_runs",
    "Mpc.Props.c138_linear",
    "Mpc.Props.c138_nonlinear",
    "Mpc.Props.c138_inside",
    "Mpc.Props.c138_inside_nonlinear",
    "Mpc.Props.c138_threads"
   ],
   "note": "c138_alone (any family of classes), c138_linear, c138_nonlinear (with them all properties of histories apply), c138_runs (a program without copies runs if every controller alone does), c138_inside, c138_inside_nonlinear (within user functions). A call of a member function of another class counts as a fault (it does not compile). Copies of nonlinear controllers share their optimizer (C74, violated). The same for a linear controller in a program with several threads, each with controllers of its own, whatever the schedule (c138_threads)."
  },
  {
   "property": "C139",
   "status": "proved",
   "theorems": [
    "Mpc.Props.c139_alone",
    "Mpc.Props.c139_names",
    "Mpc.Props.c139_frame",
    "Mpc.Props.c139_runs",
    "Mpc.Props.c139_history",
    "Mpc.Props.c139_inside",
    "Mpc.Props.c139_classes",
    "Mpc.Props.c139_mixed",
    "Mpc.Props.c139_threads"
   ],
   "note": "c139_alone, c139_names, c139_frame, c139_history (with it all properties of histories apply to copied controllers), c139_runs (no fault), c139_inside (within user functions), c139_classes, c139_mixed (in programs which also have linear controllers and nonlinear ones of other dimensions). This says what copies do; that a user expects them to be independent, and that this is violated, is C74. Linear controllers cannot be copied. The execution statistics, which every object holds by value (IMPC.hpp:296), are not part of this model (C62). A nonlinear controller and its copies which belong to one of several threads: c139_threads, whatever the schedule."
  }
 ]
}