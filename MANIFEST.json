{
 "claims": [
  {
   "property": "C01",
   "status": "proved",
   "theorems": [
    "Verif.Labeller.C01_ranges_tile",
    "Verif.Labeller.C01_add_label"
   ],
   "note": "invariant over all call histories"
  },
  {
   "property": "C02",
   "status": "proved",
   "theorems": [
    "Verif.Labeller.C02_named_vectors",
    "Verif.Labeller.C02_read_write"
   ],
   "note": "refinement to named vectors"
  },
  {
   "property": "C03",
   "status": "proved",
   "theorems": [
    "Verif.Timely.C03_nearest",
    "Verif.Timely.C03_history_independent",
    "Verif.Timely.C03_in_bounds",
    "Verif.Timely.C03_template_before_timings",
    "Verif.Timely.C03_empty_grid_out_of_bounds"
   ],
   "note": "cached binary search correct for every grid and history"
  },
  {
   "property": "C04",
   "status": "partial",
   "theorems": [
    "Verif.Timely.C04_negation_stale_grid",
    "Verif.Timely.C04_regrid_partial",
    "Verif.Timely.C04_stored_grid_partial",
    "Verif.Timely.C04_inside_partial",
    "Verif.Timely.C04_invalid_refused"
   ],
   "note": "Violated by the code for shrinking grids (C04_negation_stale_grid). Proved when the grid does not shrink; for shorter lists, for requests inside the list just passed (C04_inside_partial) and exactly what is looked up otherwise (C04_stored_grid_partial)."
  },
  {
   "property": "C05",
   "status": "proved",
   "theorems": [
    "Verif.KinDyn.C05_answer_close",
    "Verif.KinDyn.C05_refused",
    "Verif.KinDyn.C05_tolerance",
    "Verif.KinDyn.C05_zero_tolerance_exact"
   ],
   "note": "all quantities computed by the engine; the base transform buffer is C42"
  },
  {
   "property": "C06",
   "status": "partial",
   "theorems": [
    "Verif.KinDyn.C06_negation_reload",
    "Verif.KinDyn.C06_negation_gravity_drift",
    "Verif.KinDyn.C06_gravity_current_partial"
   ],
   "note": "violated by the code (two negations proved); holds without reload and without sub-tolerance gravity changes"
  },
  {
   "property": "C07",
   "status": "proved",
   "theorems": [
    "Verif.Foot.C07_ratios"
   ],
   "note": ""
  },
  {
   "property": "C08",
   "status": "proved",
   "theorems": [
    "Verif.Foot.C08_wrench_exact",
    "Verif.Foot.C08_two_corners",
    "Verif.Foot.C08_one_corner",
    "Verif.Foot.C08_no_force",
    "Verif.Foot.C08_some_active",
    "Verif.Foot.C08_unilateral"
   ],
   "note": "linear solver is a contract (returns a solution when one exists)"
  },
  {
   "property": "C09",
   "status": "proved",
   "theorems": [
    "Verif.Foot.C09_refused",
    "Verif.Foot.C09_last_accepted",
    "Verif.Foot.C09_points",
    "Verif.Foot.C09_unset"
   ],
   "note": ""
  },
  {
   "property": "C10",
   "status": "proved",
   "theorems": [
    "Verif.Settings.C10_accept_iff",
    "Verif.Settings.C10_accept_stores",
    "Verif.Settings.C10_refuse_unchanged",
    "Verif.Settings.C10_out_of_bounds_iff",
    "Verif.Settings.C10_history",
    "Verif.Settings.C10_constructor",
    "Verif.Settings.C10_defaults"
   ],
   "note": "acceptance characterised exactly; includes the out-of-bounds read when fewer velocity limits than joint limits are given"
  },
  {
   "property": "C100",
   "status": "partial",
   "theorems": [
    "Verif.LibClass.C100_safe",
    "Verif.LibClass.C100_nothing_left",
    "Verif.LibClass.C100_open_answer",
    "Verif.LibClass.C100_close_answer",
    "Verif.LibClass.C100_finding_failed_open",
    "Verif.LibClass.C100_finding_open_again",
    "Verif.LibClass.C100_finding_copy",
    "Verif.LibClass.C100_finding_invalid"
   ],
   "note": "Safety is proved for every answer of the libraries. That nothing is left behind is proved when openings do not fail and the library stays valid: otherwise it is false of the code (C100_finding_failed_open, C100_finding_invalid). Handles cannot be copied (C100_finding_copy), nor opened again with a factory that only they keep (C100_finding_open_again)."
  },
  {
   "property": "C101",
   "status": "proved",
   "theorems": [
    "Verif.Levi.C101_true_derivatives",
    "Verif.Levi.C101_answers_exist",
    "Verif.Levi.C101_derivative_of_what_was_written",
    "Verif.Levi.C101_motion",
    "Verif.Levi.C101_not_dependent",
    "Verif.Levi.C101_no_made_variables"
   ],
   "note": "The variables are different from each other (two with the same name and dimension are one variable for levi). Every answer is right; the model has no caches here (C99)."
  },
  {
   "property": "C102",
   "status": "partial",
   "theorems": [
    "Verif.Levi.Basic.C102_row_partial",
    "Verif.Levi.Basic.C102_column_partial",
    "Verif.Levi.Basic.C102_element_partial",
    "Verif.Levi.Basic.C102_accesses_partial",
    "Verif.Levi.Basic.C102_values",
    "Verif.Levi.Basic.C102_wide_rows",
    "Verif.Levi.Basic.C102_wide_columns",
    "Verif.Levi.Basic.C102_same_place",
    "Verif.Levi.Basic.C102_not_constant"
   ],
   "note": "Proved for square identities and for entries which are constants at different places; the last four theorems show that each of these hypotheses is needed: the full statement is false of the code."
  },
  {
   "property": "C103",
   "status": "partial",
   "theorems": [
    "Verif.Levi.Squeeze.C103_squeezed_dependencies",
    "Verif.Levi.Squeeze.C103_compiled_dependencies",
    "Verif.Levi.Squeeze.C103_current_values",
    "Verif.Levi.Squeeze.C103_compiled_values_partial",
    "Verif.Levi.Squeeze.C103_derivative_partial",
    "Verif.Levi.Squeeze.C103_finding_derivative",
    "Verif.Levi.Squeeze.C103_finding_compiled_derivative"
   ],
   "note": "The part on derivatives holds only for variables the expression does not depend on; for the others the two classes have no derivative (C103_finding_derivative), so the full statement is false of the code. Values of compiled expressions: for the printable expressions of C79."
  },
  {
   "property": "C104",
   "status": "partial",
   "theorems": [
    "Verif.Levi.Sizes.C104_answers_partial",
    "Verif.Levi.Sizes.C104_vector",
    "Verif.Levi.Sizes.C104_finding_number",
    "Verif.Levi.Sizes.C104_finding_matrix",
    "Verif.Levi.Sizes.C104_finding_factor"
   ],
   "note": "The full statement is false of the code: a variable with several components takes a number and shrinks, and a concatenation then shows old values (C104_finding_number); a matrix takes other sizes (C104_finding_matrix); a product with a 1x1 factor is accepted and fails when evaluated (C104_finding_factor). Proved when objects are set to values of their sizes and the factors match."
  },
  {
   "property": "C105",
   "status": "partial",
   "theorems": [
    "Verif.EvalCache.C105_assigned_partial",
    "Verif.EvalCache.C105_assigned_is_new_partial",
    "Verif.EvalCache.C105_own_ID_partial",
    "Verif.EvalCache.C105_no_leak_partial",
    "Verif.EvalCache.C105_register_bounded_partial",
    "Verif.EvalCache.C105_empty_of_another_type_finding"
   ],
   "note": "The full statement is false of the code for empty expressions of another type: operator= gives the ID back but keeps the evaluable and the ID, which can then be given to a dependency, and an evaluation returns an old value (C105_empty_of_another_type_finding). Proved for all histories in which expressions are assigned from expressions (empty or not) of the same type; the conversion to another type is the construction of a CastEvaluable (an operator of the model)."
  },
  {
   "property": "C106",
   "status": "proved",
   "theorems": [
    "Verif.Levi.C106_equal_iff_same_form",
    "Verif.Levi.C106_equal_means_same_value",
    "Verif.Levi.C106_equal_means_same_derivatives",
    "Verif.Levi.C106_written_again",
    "Verif.Levi.C106_sums_commute",
    "Verif.Levi.C106_symmetric",
    "Verif.Levi.C106_transitive"
   ],
   "note": "Same model of expressions as C25 and C46; which nodes are the same object in memory (the hash, an address) is arbitrary, provided nodes answered to be the same object are equal."
  },
  {
   "property": "C11",
   "status": "partial",
   "theorems": [
    "Verif.Settings.C11_trajectories_partial",
    "Verif.Settings.C11_negation_force_derivative",
    "Verif.Settings.C11_negation_unchecked",
    "Verif.Settings.C11_negation_spurious_refusal"
   ],
   "note": "false for the force derivative cost (wrong pointer tested), joint velocity and foot yaw costs (not tested); proved for the others"
  },
  {
   "property": "C12",
   "status": "proved",
   "theorems": [
    "Verif.Reference.C12_selects_last_active",
    "Verif.Reference.C12_none_active",
    "Verif.Reference.C12_cases",
    "Verif.Reference.C12_weight",
    "Verif.Reference.C12_degenerate"
   ],
   "note": ""
  },
  {
   "property": "C13",
   "status": "proved",
   "theorems": [
    "Verif.Walking.C13_initialise",
    "Verif.Walking.C13_not_initialised",
    "Verif.Walking.C13_defined",
    "Verif.Walking.C13_schedule",
    "Verif.Walking.C13_current_reference"
   ],
   "note": "for non-negative minimumDt and elapsed times"
  },
  {
   "property": "C14",
   "status": "proved",
   "theorems": [
    "Verif.Walking.C14_targets",
    "Verif.Walking.C14_update"
   ],
   "note": ""
  },
  {
   "property": "C15",
   "status": "proved",
   "theorems": [
    "Verif.NLP.Dynamics.C15_newton_euler",
    "Verif.NLP.Dynamics.C15_base_velocity",
    "Verif.NLP.Dynamics.C15_rates_follow_the_inputs",
    "Verif.NLP.Dynamics.C15_without_smoothing",
    "Verif.NLP.Dynamics.C15_total_mass",
    "Verif.NLP.Dynamics.C15_independent_of_earlier_calls"
   ],
   "note": "Real arithmetic; base velocity for a non-null quaternion."
  },
  {
   "property": "C16",
   "status": "proved",
   "theorems": [
    "Verif.NLP.Dynamics.C16_jacobians"
   ],
   "note": "At every state with a non-null base quaternion; output matrices start from zero as iDynTree supplies them."
  },
  {
   "property": "C17",
   "status": "proved",
   "theorems": [
    "Verif.NLP.Dynamics.C17_hessians",
    "Verif.NLP.Dynamics.C17_expressions_exist"
   ],
   "note": "At every state with a non-null base quaternion; the levi expressions are those the levi model derives, for any sound rewriting configuration."
  },
  {
   "property": "C18",
   "status": "partial",
   "theorems": [
    "Verif.NLP.Dynamics.C18_sparsity_partial",
    "Verif.NLP.Dynamics.C18_finding_normal_force_entry_not_declared"
   ],
   "note": "All entries except (normal force, same normal force) of the state Jacobian, which the code fails to declare (proved as a finding)."
  },
  {
   "property": "C19",
   "status": "proved",
   "theorems": [
    "Verif.NLP.C19_decay"
   ],
   "note": "Continuous-time trajectories; height and normal force follow the commanded rates (what the dynamics does when the activation is the constant one)."
  },
  {
   "property": "C20",
   "status": "proved",
   "theorems": [
    "Verif.NLP.C20_cone",
    "Verif.NLP.C20_derivatives",
    "Verif.NLP.C20_setter"
   ],
   "note": ""
  },
  {
   "property": "C21",
   "status": "proved",
   "theorems": [
    "Verif.NLP.C21_classical",
    "Verif.NLP.C21_planar",
    "Verif.NLP.C21_dynamical",
    "Verif.NLP.C21_normal_velocity",
    "Verif.NLP.C21_force_control",
    "Verif.NLP.C21_quaternion",
    "Verif.NLP.C21_feet_height",
    "Verif.NLP.C21_meaning"
   ],
   "note": ""
  },
  {
   "property": "C22",
   "status": "partial",
   "theorems": [
    "Verif.NLP.C22_jacobians",
    "Verif.NLP.C22_hessian_partial",
    "Verif.NLP.C22_negation_axis",
    "Verif.NLP.C22_negation_stale"
   ],
   "note": "The Hessian claim is false of the pinned code: multipliers are paired with the wrong limits, and the point position of the last value/Jacobian call is used. Both are proved as negations; the Hessian is exact under the stated conditions."
  },
  {
   "property": "C23",
   "status": "partial",
   "theorems": [
    "Verif.NLP.C23_value_and_gradients",
    "Verif.NLP.C23_vanishes",
    "Verif.NLP.C23_hessian_partial",
    "Verif.NLP.C23_when_exact",
    "Verif.NLP.C23_negation"
   ],
   "note": "The full statement is false of the code: the height-height Hessian entry lacks a factor fz (C23_when_exact says exactly when it is right, C23_negation refutes the full statement). Everything else is proved."
  },
  {
   "property": "C24",
   "status": "proved",
   "theorems": [
    "Verif.NLP.C24_swing",
    "Verif.NLP.C24_force_mean",
    "Verif.NLP.C24_force_ratio",
    "Verif.NLP.C24_default_ratio",
    "Verif.NLP.C24_mean_point",
    "Verif.NLP.C24_feet_distance",
    "Verif.NLP.C24_complementarity",
    "Verif.NLP.C24_joints"
   ],
   "note": ""
  },
  {
   "property": "C25",
   "status": "proved",
   "theorems": [
    "Verif.Levi.C25_column_derivatives_exist_and_are_true",
    "Verif.Levi.C25_derivative_of_what_was_written",
    "Verif.Levi.C25_second_derivative_of_what_was_written",
    "Verif.Levi.C25_not_dependent_means_constant"
   ],
   "note": "Division of a matrix with several columns is excluded: it reports one column (C25_finding_division_reports_one_column)."
  },
  {
   "property": "C26",
   "status": "proved",
   "theorems": [
    "Verif.EvalCache.C26_current_values"
   ],
   "note": "All histories of construction (operators with arbitrary evaluate functions, variables, Assignables, variables built from expressions), copy, destruction, assignment of values, assignment of expressions to each other, evaluation and isNew; mutexes, int overflow of the counters and destruction of evaluables are not modelled."
  },
  {
   "property": "C27",
   "status": "proved",
   "theorems": [
    "Verif.Levi.Squeeze.C27_squeezed_value",
    "Verif.Levi.Squeeze.C27_squeezed_derivative",
    "Verif.Levi.Squeeze.C27_squeezed_group"
   ],
   "note": "For every expression (over any ordered field, any pow), any uninitialised memory and any sequence of earlier evaluations; also derivatives of any order and groups of named expressions. Buffers are matrices of exact numbers."
  },
  {
   "property": "C28",
   "status": "proved",
   "theorems": [
    "Verif.SolverM.C28_defined",
    "Verif.SolverM.C28_gate",
    "Verif.SolverM.C28_outcome",
    "Verif.SolverM.C28_failure",
    "Verif.SolverM.C28_success",
    "Verif.SolverM.C28_guesses",
    "Verif.SolverM.C28_initial_state",
    "Verif.SolverM.C28_horizon",
    "Verif.SolverM.C28_finding_failed_configuration",
    "Verif.SolverM.C28_finding_more_points",
    "Verif.SolverM.C28_finding_fewer_points"
   ],
   "note": "All histories of calls, any outcome of every external call (optimal control problem, shooting solver, optimiser, construction of costs and constraints). Findings: after a failed re-configuration the horizon goes to another problem than the one optimised; re-configuring with more points per foot accesses out of bounds, with fewer returns states with the old number of points."
  },
  {
   "property": "C29",
   "status": "proved",
   "theorems": [
    "Verif.SolverM.C29_structure",
    "Verif.SolverM.C29_state_round_trip",
    "Verif.SolverM.rotationOf_unit",
    "Verif.SolverM.C29_state_of_any_vector",
    "Verif.SolverM.C29_control_round_trip",
    "Verif.SolverM.C29_control_of_any_vector",
    "Verif.SolverM.C29_state_positions",
    "Verif.SolverM.C29_control_positions",
    "Verif.SolverM.C29_initial_state"
   ],
   "note": "All numbers of joints and points, all labellers, all buffers. The round trip of the base rotation needs that the external iDynTree asQuaternion returns a quaternion describing the rotation (hypothesis of C29_state_round_trip; rotationOf_unit gives a sufficient condition). double is an ordered field."
  },
  {
   "property": "C30",
   "status": "proved",
   "theorems": [
    "Verif.SolverM.C30_bounds_made",
    "Verif.SolverM.C30_state_without_target",
    "Verif.SolverM.C30_state_with_target",
    "Verif.SolverM.C30_state_invalid_reference",
    "Verif.SolverM.C30_control",
    "Verif.SolverM.C30_finding_absolute_switch_time"
   ],
   "note": "For states and controls whose elements do not exceed what the optimiser calls infinity. Findings: the minimum height is dropped while the target is active, the switch time is absolute (not relative to the initial time), negative tolerances and negative forceMaximumDerivative give empty bounds and are accepted."
  },
  {
   "property": "C31",
   "status": "proved",
   "theorems": [
    "Verif.SolverM.C31_state_guess",
    "Verif.SolverM.C31_control_guess"
   ],
   "note": "For every answer of the user object and every earlier content of the buffer."
  },
  {
   "property": "C32",
   "status": "proved",
   "theorems": [
    "Verif.Smooth.C32_derivatives",
    "Verif.Smooth.C32_bounds",
    "Verif.Smooth.C32_history"
   ],
   "note": ""
  },
  {
   "property": "C33",
   "status": "proved",
   "theorems": [
    "Verif.Quaternion.C33_maps_are_the_quaternion_products",
    "Verif.Quaternion.C33_left_trivialised_maps_invert_each_other",
    "Verif.Quaternion.C33_jacobians",
    "Verif.Quaternion.C33_normalised_is_unit",
    "Verif.Quaternion.C33_inverse_quaternion_is_inverse_rotation",
    "Verif.Quaternion.C33_body_angular_velocity",
    "Verif.Quaternion.C33_error_quaternion_identity_iff_equal",
    "Verif.Quaternion.C33_body_angular_velocity_at"
   ],
   "note": "asQuaternion and RotationFromQuaternion are external: contract in the model."
  },
  {
   "property": "C34",
   "status": "proved",
   "theorems": [
    "Verif.Util.C34_translated",
    "Verif.Util.C34_validity_ignored"
   ],
   "note": ""
  },
  {
   "property": "C35",
   "status": "proved",
   "theorems": [
    "Verif.Util.C35_equilibrium",
    "Verif.Util.C35_carries_weight",
    "Verif.Util.C35_carries_weight_exactly",
    "Verif.Util.C35_refusals"
   ],
   "note": "linear solver is a contract"
  },
  {
   "property": "C36",
   "status": "proved",
   "theorems": [
    "Verif.Util.C36_terminates",
    "Verif.Util.C36_diverges_without_points"
   ],
   "note": ""
  },
  {
   "property": "C37",
   "status": "proved",
   "theorems": [
    "Verif.StateM.C37_constructed",
    "Verif.StateM.C37_resized",
    "Verif.StateM.C37_resize_same",
    "Verif.StateM.C37_zero",
    "Verif.StateM.C37_checkSize",
    "Verif.StateM.C37_sameSize",
    "Verif.StateM.C37_control_constructed",
    "Verif.StateM.C37_control_resized",
    "Verif.StateM.C37_control_zero",
    "Verif.StateM.C37_control_checkSize",
    "Verif.StateM.C37_control_sameSize"
   ],
   "note": ""
  },
  {
   "property": "C38",
   "status": "proved",
   "theorems": [
    "Verif.StateM.C38_centroid_mean",
    "Verif.StateM.C38_centroid_unique",
    "Verif.StateM.C38_centroid_empty",
    "Verif.StateM.C38_centroid_shift",
    "Verif.StateM.C38_forward_shift",
    "Verif.StateM.C38_forward_asymm",
    "Verif.StateM.C38_forward_iff",
    "Verif.StateM.C38_min_force",
    "Verif.StateM.C38_min_force_defined"
   ],
   "note": ""
  },
  {
   "property": "C39",
   "status": "partial",
   "theorems": [
    "Verif.NLP.C39_alignment",
    "Verif.NLP.C39_measured",
    "Verif.NLP.C39_yaw_partial",
    "Verif.NLP.C39_corners",
    "Verif.NLP.C39_derivatives",
    "Verif.NLP.C39_negation"
   ],
   "note": "Exact derivatives and what the cost measures are proved for every foot; that the target is the desired yaw holds for feet aligned with their frame and is refuted (C39_negation) for turned ones: the initial yaw is subtracted instead of added."
  },
  {
   "property": "C40",
   "status": "proved",
   "theorems": [
    "Verif.NLP.C40_no_slip"
   ],
   "note": ""
  },
  {
   "property": "C41",
   "status": "proved",
   "theorems": [
    "Verif.Walking.C41_progress"
   ],
   "note": ""
  },
  {
   "property": "C42",
   "status": "partial",
   "theorems": [
    "Verif.KinDyn.C05_base_transform_partial",
    "Verif.KinDyn.C05_negation_base_transform_after_refusal"
   ],
   "note": "holds as long as no update was refused; a refused update leaves the buffer with the refused pose (counterexample proved)"
  },
  {
   "property": "C43",
   "status": "proved",
   "theorems": [
    "Verif.NLP.C43_constraints",
    "Verif.NLP.C43_costs",
    "Verif.NLP.Kin.C64_sparsity",
    "Verif.NLP.Kin.C65_sparsity",
    "Verif.NLP.Kin.C66_sparsity",
    "Verif.NLP.Kin.C67_sparsity",
    "Verif.NLP.Kin.C69_sparsity",
    "Verif.NLP.Kin.C70_sparsity"
   ],
   "note": "All the constraint and cost classes of the planner; StaticTorquesCost returns no second derivatives. The dynamics are C18."
  },
  {
   "property": "C44",
   "status": "proved",
   "theorems": [
    "Verif.NLP.C44_velocity_bounds",
    "Verif.NLP.C44_grounded"
   ],
   "note": ""
  },
  {
   "property": "C45",
   "status": "proved",
   "theorems": [
    "Verif.NLP.C45_no_penetration"
   ],
   "note": ""
  },
  {
   "property": "C46",
   "status": "proved",
   "theorems": [
    "Verif.Levi.C46_rewriting_preserves_the_value"
   ],
   "note": ""
  },
  {
   "property": "C47",
   "status": "proved",
   "theorems": [
    "Verif.Quaternion.C47_unit_quaternions_respect_the_bounds"
   ],
   "note": "Finding: no tolerance below -1 for the real part (C47_finding_no_tolerance_below_minus_one)."
  },
  {
   "property": "C48",
   "status": "proved",
   "theorems": [
    "Verif.Levi.Quat.C48_rotation_value",
    "Verif.Levi.Quat.C48_base_rotation_value"
   ],
   "note": ""
  },
  {
   "property": "C49",
   "status": "partial",
   "theorems": [
    "Verif.Levi.Quat.C49_body_twist_partial",
    "Verif.Levi.Quat.C49_server_twist_value",
    "Verif.Levi.Quat.C49_finding_server_twist_is_not_the_body_twist"
   ],
   "note": "Holds for BodyTwistFromQuaternionVelocity; false for ExpressionsServer::baseTwist (used by absoluteVelocity(frame) and the frame angular velocity cost), whose angular part is expressed in the world frame: proved."
  },
  {
   "property": "C50",
   "status": "proved",
   "theorems": [
    "Verif.NLP.C50_momentum_reference"
   ],
   "note": ""
  },
  {
   "property": "C51",
   "status": "proved",
   "theorems": [
    "Verif.EvalCache.C51_not_new_means_unchanged",
    "Verif.EvalCache.C51_never_evaluated_is_new"
   ],
   "note": "Same model as C26."
  },
  {
   "property": "C52",
   "status": "proved",
   "theorems": [
    "Verif.EvalCache.C52_evaluated_is_not_new"
   ],
   "note": "Same model as C26."
  },
  {
   "property": "C53",
   "status": "partial",
   "theorems": [
    "Verif.SolverM.C53_costs_partial",
    "Verif.SolverM.C53_costs_set_iff",
    "Verif.SolverM.C53_finding_ratio_weight"
   ],
   "note": "Missing: the weight of the force ratio costs, which is false of the code: Solver.cpp:470 and 479 use forceMeanCostOverallWeight instead of forceRatioCostOverallWeight (C53_finding_ratio_weight); everything else is proved for every cost."
  },
  {
   "property": "C54",
   "status": "proved",
   "theorems": [
    "Verif.SolverM.C54_constraints",
    "Verif.SolverM.C54_constraints_set_iff",
    "Verif.SolverM.C54_one_mechanism",
    "Verif.SolverM.C54_activations"
   ],
   "note": "For any behaviour of addConstraint; the names accepted by the real one never clash."
  },
  {
   "property": "C55",
   "status": "partial",
   "theorems": [
    "Verif.SolverM.C55_validated_settings_partial",
    "Verif.SolverM.C55_finding_zero_friction",
    "Verif.SolverM.C55_finding_ignored_settings"
   ],
   "note": "Exact characterisation of the accepted settings that can be turned into a problem; the full property is false: a zero friction coefficient, a foot without points, the range of the CoM velocity cost, the joints velocity, force derivative, foot yaw and postural members are not validated; gravity, updateTolerance and floatingBaseName have no effect."
  },
  {
   "property": "C56",
   "status": "proved",
   "theorems": [
    "Verif.SolverM.C56_mean_points",
    "Verif.SolverM.C56_feet_points",
    "Verif.SolverM.C56_forces",
    "Verif.SolverM.C56_count",
    "Verif.SolverM.C56_torques",
    "Verif.SolverM.C56_dynamics"
   ],
   "note": "Any number of points."
  },
  {
   "property": "C57",
   "status": "proved",
   "theorems": [
    "Verif.Rigid.C57_velocity",
    "Verif.Rigid.C57_frameVel_derivative",
    "Verif.Rigid.C57_frameVel_total",
    "Verif.Rigid.C57_frameVel_null",
    "Verif.Rigid.C57_frameVel_base_free"
   ],
   "note": "Any tree; the joints are arbitrary curves of rigid motions with constant direction (revolute and prismatic joints are shown to be instances). iDynTree's forward kinematics is described by its equations."
  },
  {
   "property": "C58",
   "status": "proved",
   "theorems": [
    "Verif.Rigid.C58_momentum_derivative",
    "Verif.Rigid.C58_momentum_total"
   ],
   "note": "Any tree, any inertias."
  },
  {
   "property": "C59",
   "status": "proved",
   "theorems": [
    "Verif.Rigid.C59_torque_derivative",
    "Verif.Rigid.C59_newton_euler",
    "Verif.Rigid.C59_virtual_work",
    "Verif.Rigid.C59_torque_of_weight"
   ],
   "note": "The loop over the tree is the one of the code; the invariant covers any tree and order."
  },
  {
   "property": "C60",
   "status": "partial",
   "theorems": [
    "Verif.Rigid.C60_value",
    "Verif.Rigid.C60_derivatives_partial",
    "Verif.Rigid.C60_frames_other_joints",
    "Verif.Rigid.C60_finding_last_joint",
    "Verif.Rigid.C60_finding_rotation",
    "Verif.Rigid.C60_finding_example",
    "Verif.Rigid.C60_rotation_derivatives_partial",
    "Verif.Rigid.C60_rotation_symmetric"
   ],
   "note": "The value is right for all frames. The derivatives of every order are right when the target is a link; for a target frame placed with an offset on its link, the derivative with respect to the joint just above it is right exactly when the offset does not move the direction of the joint (C60_finding_*: false in general, AdjointTransformExpression.cpp:245-254)."
  },
  {
   "property": "C61",
   "status": "partial",
   "theorems": [
    "Verif.Rigid.C61_jacobian",
    "Verif.Rigid.C61_relative_velocity",
    "Verif.Rigid.C61_absolute_velocity",
    "Verif.Rigid.C61_derivatives",
    "Verif.Rigid.C61_velocity_derivatives",
    "Verif.Rigid.C61_position",
    "Verif.Rigid.C61_position_hessian",
    "Verif.Rigid.C61_finding_position_hessian",
    "Verif.Rigid.C61_position_hessian_link",
    "Verif.Rigid.C61_finding_example",
    "Verif.Rigid.C61_position_hessian_keepsAxes"
   ],
   "note": "All values, first derivatives and, for velocities, derivatives of every order. The second derivative of the relative position inherits the finding of C60 for frames with an offset (C61_finding_position_hessian is an exact characterisation)."
  },
  {
   "property": "C62",
   "status": "proved",
   "theorems": [
    "Verif.Rigid.C62_value",
    "Verif.Rigid.C62_first",
    "Verif.Rigid.C62_joints_evaluation",
    "Verif.Rigid.C62_second",
    "Verif.Rigid.C62_higher"
   ],
   "note": "Any tree, any frames, any order of derivation. The first derivative with respect to the positions is evaluated from the state of the server: it is right when the velocity of the base of that state is the base twist (hypothesis of C62_joints_evaluation). The memoization of the server is not in this model."
  },
  {
   "property": "C63",
   "status": "proved",
   "theorems": [
    "Verif.Rigid.C63_position",
    "Verif.Rigid.C63_jacobian",
    "Verif.Rigid.C63_hessian",
    "Verif.Rigid.C63_higher",
    "Verif.Rigid.C63_linear_momentum",
    "Verif.Rigid.C63_transform"
   ],
   "note": "Any tree, any joints. The Jacobian of KinDynComputations is external and described by its equation. Remark outside the model: the Jacobian expression answers a null matrix with 6 rows instead of 3 for the variables it does not depend on (CoMInBaseExpression.cpp, derivative with respect to other variables), unreachable because the dependency check comes first."
  },
  {
   "property": "C64",
   "status": "proved",
   "theorems": [
    "Verif.NLP.Kin.C64_value",
    "Verif.NLP.Kin.C64_jacobians",
    "Verif.NLP.Kin.C64_expressions_exist",
    "Verif.NLP.Kin.C64_hessians",
    "Verif.NLP.Kin.C64_any_order",
    "Verif.NLP.Kin.C64_sparsity",
    "Verif.NLP.Kin.C64_bounds"
   ],
   "note": "Any tree, any joints. The parallel evaluations are taken as atomic (levi locks its evaluables) and each result is written when found ready, in any order. iDynTree Jacobians are external and described by their equations. The base of the robot description is the one of the server."
  },
  {
   "property": "C65",
   "status": "proved",
   "theorems": [
    "Verif.NLP.Kin.C65_value",
    "Verif.NLP.Kin.C65_jacobians",
    "Verif.NLP.Kin.C65_expressions_exist",
    "Verif.NLP.Kin.C65_hessians",
    "Verif.NLP.Kin.C65_sparsity",
    "Verif.NLP.Kin.C65_bounds"
   ],
   "note": "Any tree. iDynTree (centre of mass, its Jacobian, the quaternion maps) is external and described by its equations."
  },
  {
   "property": "C66",
   "status": "partial",
   "theorems": [
    "Verif.NLP.Kin.C66_value",
    "Verif.NLP.Kin.C66_jacobian_columns",
    "Verif.NLP.Kin.C66_jacobians_partial",
    "Verif.NLP.Kin.C66_hessians_partial",
    "Verif.NLP.Kin.C66_sparsity",
    "Verif.NLP.Kin.C66_bounds",
    "Verif.NLP.Kin.C66_finding_example"
   ],
   "note": "Value, sparsity and bounds for every frame. The Jacobian is right for every frame but for the joint just above the foot, where C66_jacobian_columns is an exact characterisation; the claim is false in general (C66_finding_example, inherited from AdjointTransformExpression.cpp:245-254). Second derivatives for frames turned on their link only about the axis of the last joint (KeepsAxes), which includes all the links."
  },
  {
   "property": "C67",
   "status": "partial",
   "theorems": [
    "Verif.NLP.Kin.C67_value",
    "Verif.NLP.Kin.C67_jacobians",
    "Verif.NLP.Kin.C67_hessians_partial",
    "Verif.NLP.Kin.C67_hessian_entries",
    "Verif.NLP.Kin.C67_sparsity",
    "Verif.NLP.Kin.C67_bounds",
    "Verif.NLP.Kin.C67_finding_example"
   ],
   "note": "Value, Jacobians, sparsity and bounds for every frame. Second derivatives when the rotation of the other frame on its link keeps the axis of the last joint; entry by entry for any frame but for that joint; false in general (C67_finding_example)."
  },
  {
   "property": "C68",
   "status": "partial",
   "theorems": [
    "Verif.NLP.Kin.C68_torques_hold_the_robot",
    "Verif.NLP.Kin.C68_value",
    "Verif.NLP.Kin.C68_nonneg",
    "Verif.NLP.Kin.C68_torques_jacobian",
    "Verif.NLP.Kin.C68_gradient",
    "Verif.NLP.Kin.C68_quaternions_coherent",
    "Verif.NLP.Kin.C68_finding_quaternion_sign",
    "Verif.NLP.Kin.C68_finding_same_link",
    "Verif.NLP.Kin.C68_set_weights",
    "Verif.NLP.Kin.C68_trace_coherent"
   ],
   "note": "Value for feet on different links; gradient also needs the quaternions that the library gives for the rotation of a foot and for its inverse to be one the inverse of the other (proved when no foot is turned by half a turn). The claim is false otherwise: on the same link the wrench of the left foot is overwritten (C68_finding_same_link), with the other sign a term of the gradient changes sign (C68_finding_quaternion_sign). The class has no second derivatives."
  },
  {
   "property": "C69",
   "status": "partial",
   "theorems": [
    "Verif.NLP.Kin.C69_value",
    "Verif.NLP.Kin.C69_zero_iff",
    "Verif.NLP.Kin.C69_gradients",
    "Verif.NLP.Kin.C69_hessians",
    "Verif.NLP.Kin.C69_sparsity",
    "Verif.NLP.Kin.C69_validity",
    "Verif.NLP.Kin.C69_own_reference",
    "Verif.NLP.Kin.C69_finding_shared_reference"
   ],
   "note": "Everything is proved for one cost per frame. With two costs on the same frame the claim is false of the code: the second derivatives of the second one use the reference of the first one, because the server remembers the expression of the error by the name of the frame only (C69_finding_shared_reference)."
  },
  {
   "property": "C70",
   "status": "partial",
   "theorems": [
    "Verif.NLP.Kin.C70_value",
    "Verif.NLP.Kin.C70_velocity_used",
    "Verif.NLP.Kin.C70_body_velocity",
    "Verif.NLP.Kin.C70_base_frame_partial",
    "Verif.NLP.Kin.C70_state_derivatives_partial",
    "Verif.NLP.Kin.C70_control_derivatives_partial",
    "Verif.NLP.Kin.C70_same_velocities",
    "Verif.NLP.Kin.C70_sparsity",
    "Verif.NLP.Kin.C70_validity",
    "Verif.NLP.Kin.C70_finding_control_ignored",
    "Verif.NLP.Kin.C70_finding_control_gradient",
    "Verif.NLP.Kin.C70_finding_control_hessian",
    "Verif.NLP.Kin.C70_finding_frames"
   ],
   "note": "Proved: the exact value the code returns, exact derivatives by the state (frames whose rotation on the link keeps the joint axis, see C60), exact control and mixed derivatives of the cost with the velocities of the shared computations, the intended value for the base frame. The full claim is false of the code: the control is never read, so the value is constant in the control while the returned control gradient is not zero (C70_finding_control_ignored, C70_finding_control_gradient); the second derivatives by the control are missing (C70_finding_control_hessian); for other frames the velocity seen from the frame is added to an error in the world (C70_finding_frames)."
  },
  {
   "property": "C71",
   "status": "partial",
   "theorems": [
    "Verif.Server.C71_current",
    "Verif.Server.C71_exact",
    "Verif.Server.C71_evaluation",
    "Verif.Server.C71_given_partial",
    "Verif.Server.C71_finding_stale"
   ],
   "note": "Proved for updateRobotState(time), the only form the planner uses. For the form that is given a state the last sentence is false of the code when another class has already given that state to the kinematics (C71_finding_stale): the call succeeds and the variables keep the old state."
  },
  {
   "property": "C72",
   "status": "partial",
   "theorems": [
    "Verif.Server.C72_first",
    "Verif.Server.C72_right_iff",
    "Verif.Server.C72_right_partial",
    "Verif.Server.C72_finding_frames",
    "Verif.Server.C72_finding_joint",
    "Verif.Server.C72_finding_two_joints",
    "Verif.Server.C72_finding_twist"
   ],
   "note": "Proved exactly when the joined names can be told from each other (C72_right_iff), with a sufficient condition on the names (C72_right_partial). Without it the claim is false of the code: the keys are concatenations of names (and of link indices), so different frames, the two directions of a joint between the links 1 and 11, or different joints can share a key; the second derivatives of the momentum ignore the twist variable."
  },
  {
   "property": "C73",
   "status": "proved",
   "theorems": [
    "Verif.Rigid.C73_value",
    "Verif.Rigid.C73_derivatives",
    "Verif.Rigid.C73_tangent",
    "Verif.Rigid.C73_angular_velocity"
   ],
   "note": "The memoization of the server is the subject of C72; the conversion from rotation to quaternion of iDynTree is a parameter, with the hypothesis that it gives unit quaternions of the rotation and does not jump."
  },
  {
   "property": "C74",
   "status": "proved",
   "theorems": [
    "Verif.Logger.C74_saves_iff",
    "Verif.Logger.C74_saved",
    "Verif.Logger.C74_nothing_else",
    "Verif.Logger.C74_names",
    "Verif.Logger.C74_finding_dropped"
   ],
   "note": "The map given to the file is modelled; writing the MAT file, and the settings structure saved next to it, are not. Finding: the contact points that only later states have are dropped silently (C74_finding_dropped)."
  },
  {
   "property": "C75",
   "status": "partial",
   "theorems": [
    "Verif.Visualizer.C75_model_first",
    "Verif.Visualizer.C75_one_model",
    "Verif.Visualizer.C75_shown_partial",
    "Verif.Visualizer.C75_exact",
    "Verif.Visualizer.C75_history",
    "Verif.Visualizer.C75_finding_stale_arrows"
   ],
   "note": "Missing, because false: a state with fewer contact points than one shown before is drawn with the leftover arrows (C75_finding_stale_arrows). Colors, lights and labels are not modelled."
  },
  {
   "property": "C76",
   "status": "proved",
   "theorems": [
    "Verif.Visualizer.C76_states",
    "Verif.Visualizer.C76_states_with_camera",
    "Verif.Visualizer.C76_pace",
    "Verif.Visualizer.C76_camera"
   ],
   "note": "The clock is a parameter."
  },
  {
   "property": "C77",
   "status": "partial",
   "theorems": [
    "Verif.Visualizer.C77_names",
    "Verif.Visualizer.C77_names_differ",
    "Verif.Visualizer.C77_animation_partial",
    "Verif.Visualizer.C77_finding_end_time_ignored",
    "Verif.Visualizer.C77_finding_default_saves_nothing"
   ],
   "note": "Missing, because false: the end time. A positive end time never cuts (C77_finding_end_time_ignored) and the default one saves nothing while reporting success (C77_finding_default_saves_nothing): the condition at Visualizer.cpp:194 is inverted."
  },
  {
   "property": "C78",
   "status": "partial",
   "theorems": [
    "Verif.Visualizer.C78_animation_partial",
    "Verif.Visualizer.C78_one_prediction",
    "Verif.Visualizer.C78_finding_throws",
    "Verif.Visualizer.C78_finding_excess",
    "Verif.Visualizer.C78_finding_default_saves_nothing"
   ],
   "note": "Proved when the digits computed are enough (predictions of any lengths). Missing, because false: when they are not enough an exception stops the animation (C78_finding_throws, e.g. three predictions of three states); states in excess are not shown; the end time is inverted as in C77."
  },
  {
   "property": "C79",
   "status": "partial",
   "theorems": [
    "Verif.Levi.Code.C79_compiled_partial",
    "Verif.Levi.Code.C79_written_partial",
    "Verif.Levi.Code.C79_finding_divisor",
    "Verif.Levi.Code.C79_finding_helper",
    "Verif.Levi.Code.C79_finding_signs",
    "Verif.Levi.Code.C79_finding_block",
    "Verif.Levi.Code.C79_finding_exponent"
   ],
   "note": "Proved for expressions without divisions, blocks of 1x1 expressions, and with exponents of at most six decimals (Printable). Missing, because false: divisors that are products lose their parentheses (C79_finding_divisor), a helper is substituted for a text that is not a sub-expression when there are divisions (C79_finding_helper), opposites of quotients may not compile (C79_finding_signs), blocks of numbers do not compile (C79_finding_block), exponents are rounded (C79_finding_exponent)."
  },
  {
   "property": "C80",
   "status": "proved",
   "theorems": [
    "Verif.Levi.CodeText.C80_lines",
    "Verif.Levi.CodeText.C80_same_text"
   ],
   "note": "At the level of characters."
  },
  {
   "property": "C81",
   "status": "partial",
   "theorems": [
    "Verif.Levi.CodeText.C81_identifier_partial",
    "Verif.Levi.CodeText.C81_distinct_partial",
    "Verif.Levi.CodeText.C81_finding_underscore",
    "Verif.Levi.CodeText.C81_finding_digit",
    "Verif.Levi.CodeText.C81_finding_collision"
   ],
   "note": "Proved for names of letters, digits and spaces. Missing, because false: an underscore becomes a minus sign, a leading digit and an empty name are kept, punctuation marks are confused; reserved words are not excluded."
  },
  {
   "property": "C82",
   "status": "proved",
   "theorems": [
    "Verif.EvalCache.C82_are_new",
    "Verif.EvalCache.C82_nothing_new",
    "Verif.EvalCache.C82_asking_changes_nothing",
    "Verif.EvalCache.C82_all_evaluated",
    "Verif.EvalCache.C82_evaluate"
   ],
   "note": "Sets built from lvalues: the constructors taking two or more rvalues (DependenciesSet.h:108-111, 152-155) use std::forward without its type and cannot be instantiated."
  },
  {
   "property": "C83",
   "status": "proved",
   "theorems": [
    "Verif.Plan.C83_feasible_iff_consistent"
   ],
   "note": "Constraints as created by setConstraints, over the reals; the minimum distance of the feet is assumed not negative."
  },
  {
   "property": "C84",
   "status": "proved",
   "theorems": [
    "Verif.Plan.C84_newton_euler",
    "Verif.Plan.C84_links_move",
    "Verif.Plan.C84_linear_momentum",
    "Verif.Plan.C84_robot_obeys_newton_euler"
   ],
   "note": "Trajectories in continuous time: the transcription to finitely many instants is done by the external MultipleShootingSolver, not modelled. The second part assumes null tolerances for the quaternion and the centre of mass: with a positive tolerance the quaternion may be off the unit sphere, and the angular velocity of the base used by the constraints is then not the one of the dynamics."
  },
  {
   "property": "C85",
   "status": "proved",
   "theorems": [
    "Verif.Plan.C85_loaded_points_do_not_move",
    "Verif.Plan.C85_loaded_points_are_on_the_ground",
    "Verif.Plan.C85_no_slip"
   ],
   "note": "C85_no_slip takes the bounds on the heights from the problem itself (C30), the first two theorems take them as hypotheses."
  },
  {
   "property": "C86",
   "status": "proved",
   "theorems": [
    "Verif.Plan.C86_friction_cone",
    "Verif.Plan.C86_feet_above_the_ground",
    "Verif.Plan.C86_product_decays",
    "Verif.Plan.C86_force_fades",
    "Verif.Plan.C86_planar_velocity",
    "Verif.Plan.C86_points_stop"
   ],
   "note": "Continuous time, over the reals; all elements of the trajectory are assumed to be between the infinities of the optimiser. Assumes a positive dissipation and maximum (settings that Settings.cpp does not check have their sign as hypothesis)."
  },
  {
   "property": "C87",
   "status": "proved",
   "theorems": [
    "Verif.Plan.C87_objective"
   ],
   "note": "The statement is about the costs as they are set: the force ratio costs have the weight of the force mean ones (finding of C53) and the frame angular velocity cost uses the velocities held by the shared computations (finding of C70). The hypotheses Evaluable are those of C68, C69 and C70. External L2NormCost (with or without its constant part) and costsEvaluation are modelled from their documentation."
  },
  {
   "property": "C88",
   "status": "partial",
   "theorems": [
    "Verif.Plugin.C88_own_code_partial",
    "Verif.Plugin.C88_finding_same_name"
   ],
   "note": "The full statement is false of the code: an expression made while another one with the same name for the compiler (letters, digits and dashes only) is alive gets the library that is already loaded and computes the code of the other (C88_finding_same_name). It is proved for all histories in which that does not happen. The compiler, dlopen and dlclose are external, modelled from POSIX; the libraries are in `lib` (CMAKE_INSTALL_LIBDIR)."
  },
  {
   "property": "C89",
   "status": "partial",
   "theorems": [
    "Verif.Plugin.C89_open",
    "Verif.Plugin.C89_defined",
    "Verif.Plugin.C89_valid_partial",
    "Verif.Plugin.C89_finding_zero",
    "Verif.Plugin.C89_finding_empty"
   ],
   "note": "The full statement is false of the code for zero as start check (C89_finding_zero: valid after a failed opening, with functions that are not in memory) and for an empty element in the environment variable (C89_finding_empty: the last letter of an empty string is read); it is proved in all other cases, and C89_defined says that opening is undefined in that case only."
  },
  {
   "property": "C90",
   "status": "partial",
   "theorems": [
    "Verif.Parallel.C90_parallel_values_partial",
    "Verif.Parallel.C90_later_partial",
    "Verif.Parallel.C90_histories_partial",
    "Verif.Parallel.C90_no_race_partial",
    "Verif.Parallel.C90_no_deadlock",
    "Verif.Parallel.C90_terminates",
    "Verif.Parallel.C90_stale_variable"
   ],
   "note": "The full statement is false of the code: `isNew` marks the dependencies as new without holding their mutex, so when a variable made from an expression has to be updated at the start two threads can mark it in turn and one reads a buffer the other is rewriting (C90_stale_variable: 1 instead of 9). Values, later evaluations and absence of races are proved when the variables made from expressions are up to date at the start (C90_histories_partial: in all histories without such variables); absence of deadlock and termination are proved in all cases. Memory is sequentially consistent; the copies of the expressions for the threads are made before the threads start."
  },
  {
   "property": "C91",
   "status": "partial",
   "theorems": [
    "Verif.Plan.C91_gradient_partial"
   ],
   "note": "The full statement is false of the code: the derivative of the angular velocity cost with respect to the control is wrong (C70) and its derivative with respect to the state is right only for frames that keep the axis of their joint. Proved: the state gradient in all cases (with that restriction when that cost is active), the control gradient whenever that cost is not active, and that the gradients exist exactly when the value does. The sum over the terms and the gradient of L2NormCost are iDynTree (external, modelled)."
  },
  {
   "property": "C92",
   "status": "partial",
   "theorems": [
    "Verif.Plan.C92_jacobian_partial"
   ],
   "note": "The full statement is false of the code: the Jacobian of the constraint of a point of a foot is wrong when the frame of the foot is turned with respect to its link (C66, with a counterexample there). Proved for all the robots whose foot frames keep the axis of their joint. The stacking of the rows is iDynTree (external, modelled)."
  },
  {
   "property": "C93",
   "status": "partial",
   "theorems": [
    "Verif.Plan.C93_hessians_partial"
   ],
   "note": "The full statement is false of the code: the second derivatives are wrong for foot frames turned with respect to their links (C66, C67) and for the planar constraint of the hyperbolic tangent (C22), with counterexamples there. Proved for all the other settings and robots; sparsity and bounds of the indices included. The sum over the constraints is iDynTree (external, modelled)."
  },
  {
   "property": "C94",
   "status": "partial",
   "theorems": [
    "Verif.Plan.C94_hessians_partial",
    "Verif.Plan.C94_static_torques"
   ],
   "note": "The full statement is false of the code: the second derivatives of the phantom forces cost (C23) and of the angular velocity cost (C70) are wrong, with counterexamples there, and with the static torques cost there are no second derivatives at all, although there are a value and a gradient (C94_static_torques). Proved for all the settings where these three costs are off. L2NormCost and the sum over the costs are iDynTree (external, modelled); asQuaternion is assumed to give the quaternion of the desired rotation."
  },
  {
   "property": "C95",
   "status": "partial",
   "theorems": [
    "Verif.Plan.C95_jacobians",
    "Verif.Plan.C95_hessians",
    "Verif.Plan.C95_sparsity_partial",
    "Verif.Plan.C95_normal_forces"
   ],
   "note": "Jacobians and second derivatives are proved in full. The full statement about the sparsity is false of the code: the derivative of the rate of a normal force with respect to the same force is not declared although it is not zero with dissipation (C95_normal_forces, see C18). All the other entries are proved."
  },
  {
   "property": "C96",
   "status": "partial",
   "theorems": [
    "Verif.LoggedSettings.C96_each_setting",
    "Verif.LoggedSettings.C96_names",
    "Verif.LoggedSettings.C96_same_file_iff",
    "Verif.LoggedSettings.C96_file",
    "Verif.LoggedSettings.C96_unsaved",
    "Verif.LoggedSettings.C96_not_recoverable"
   ],
   "note": "Everything about the fields that are saved is proved. The last part of the full statement is false of the code: the 22 references, time ranges and time varying weights are not saved, so that settings which differ only in them give the same structure (C96_unsaved, C96_not_recoverable); of the robot model only the text is saved."
  },
  {
   "property": "C97",
   "status": "proved",
   "theorems": [
    "Verif.Plan.C97_bounded_below",
    "Verif.Plan.C97_negative_weight"
   ],
   "note": "The hypothesis on the weights is needed: nothing checks their sign, and with a negative weight the value has no lower bound (C97_negative_weight). External parts as for C87."
  },
  {
   "property": "C98",
   "status": "proved",
   "theorems": [
    "Verif.Util.Weight.C98_answer",
    "Verif.Util.Weight.C98_start",
    "Verif.Util.Weight.C98_monotone",
    "Verif.Util.Weight.C98_limit",
    "Verif.Util.Weight.C98_nonnegative_iff",
    "Verif.Util.Weight.C98_reference"
   ],
   "note": ""
  },
  {
   "property": "C99",
   "status": "proved",
   "theorems": [
    "Verif.Levi.DerivativeCache.C99_sessions",
    "Verif.Levi.DerivativeCache.C99_true_derivatives",
    "Verif.Levi.DerivativeCache.C99_same_as_without_cache",
    "Verif.Levi.DerivativeCache.C99_finding_same_name"
   ],
   "note": "The hypothesis on the names is needed: the caches are indexed by the name of the variable only (C99_finding_same_name)."
  }
 ]
}