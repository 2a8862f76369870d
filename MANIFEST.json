{
 "claims": [
  {
   "property": "C01",
   "status": "proved",
   "theorems": [
    "Verif.Props.C01_contact_force_exact"
   ],
   "note": "for every robot size; the reported force is the unique force compatible with the dynamics and fixed contacts"
  },
  {
   "property": "C02",
   "status": "proved",
   "theorems": [
    "Verif.Props.C02_finite_iff_independent",
    "Verif.Props.C02_projector"
   ],
   "note": "finite iff independent rows, and all projector properties"
  },
  {
   "property": "C03",
   "status": "proved",
   "theorems": [
    "Verif.Props.C03_gravity_compensation",
    "Verif.Props.C03_feet_determine_base"
   ],
   "note": "joint accelerations vanish; base too when contacts determine it"
  },
  {
   "property": "C04",
   "status": "proved",
   "theorems": [
    "Verif.Props.C04_internal_force",
    "Verif.Props.C04_every_internal_force"
   ],
   "note": "redistribution torques do not accelerate the robot, produce the commanded force components, and are all the torques that do not accelerate it"
  },
  {
   "property": "C05",
   "status": "partial",
   "theorems": [
    "Verif.Props.C05_outcome",
    "Verif.Props.C05_few_rows",
    "Verif.Props.C05_points_last_not_finite",
    "Verif.Props.C05_feet_succeed"
   ],
   "note": "code finding: the error return is never reached in a defined way; the ill-posed case evaluates a non-square inverse. Success for well-posed contacts additionally needs the base columns of the last six contact rows to be nonsingular (proved to be the exact condition); C05_points_last_not_finite shows it fails when two point contacts are registered last. C05_feet_succeed: with two or more 6-D feet riding on the base and independent rows the condition always holds, so the calculation succeeds."
  },
  {
   "property": "C06",
   "status": "proved",
   "theorems": [
    "Verif.Props.C06_task_achieved",
    "Verif.Props.C06_finite_iff"
   ],
   "note": "one task level; finiteness characterised"
  },
  {
   "property": "C07",
   "status": "partial",
   "theorems": [
    "Verif.Props.C07_top_priority_partial",
    "Verif.Props.C07_decoupled_partial",
    "Verif.Props.C07_priority_violated",
    "Verif.Props.C07_sweep_partial",
    "Verif.Props.C07_closer_partial",
    "Verif.Props.C07_compatible_partial"
   ],
   "note": "The full claim is false: C07_priority_violated gives a three-level stack where the third task disturbs the second. Proved for every height: the top level is never disturbed; decoupled stacks achieve every command; exactly what a stack does (C07_sweep_partial: starting from the lowest task, the motion is corrected by the least change for each task above); if all commands can be met together, the motion is never farther from meeting them than rest (C07_closer_partial); a task on top changes nothing iff it is met already."
  },
  {
   "property": "C08",
   "status": "proved",
   "theorems": [
    "Verif.Props.C08_torque_limit"
   ],
   "note": "for a solver whose reported answers are feasible"
  },
  {
   "property": "C09",
   "status": "proved",
   "theorems": [
    "Verif.Props.C09_contacts_hold"
   ],
   "note": "6-D contacts; stated for the physical contact force of any motion under the total torque"
  },
  {
   "property": "C10",
   "status": "partial",
   "theorems": [
    "Verif.Props.C10_safe",
    "Verif.Props.C10_motion_unchanged",
    "Verif.Props.C10_unchanged",
    "Verif.Props.C10_least",
    "Verif.Props.C10_succeeds_iff",
    "Verif.Props.C10_failure_clears",
    "Verif.Props.C10_single_support_unchecked"
   ],
   "note": "holds in double support, where success is also characterised exactly and the result changes the forces above the last six rows least; a reported failure leaves no contact torque; false in single support, where success is reported without checking (negation proved)"
  },
  {
   "property": "C100",
   "status": "partial",
   "theorems": [
    "Verif.Props.C100_motion",
    "Verif.Props.C100_stands_iff",
    "Verif.Props.C100_task_control",
    "Verif.Props.C100_redistribute",
    "Verif.Props.C100_redistribute_iff",
    "Verif.Props.C100_topples",
    "Verif.Props.C100_never_fails",
    "Verif.Props.C100_zmp",
    "Verif.Props.C100_blocks_stand",
    "Verif.Props.C100_blocks_zmp",
    "Verif.Props.C100_boom_topples",
    "Verif.Props.C100_one_foot_unnoticed",
    "Verif.Props.C100_jacc",
    "Verif.Props.C100_reduced_task_control",
    "Verif.Props.C100_reduced_redistribute_iff",
    "Verif.Props.C100_reduced_never_fails",
    "Verif.Props.C100_hand_stands",
    "Verif.Props.C100_blocks_jacc"
   ],
   "note": "Level ground, flat 6-D feet at one height, robot at rest, exact reals. The statements about redistribution and task control need at least two feet: on one foot redistribution reports success without checking (C100_one_foot_unnoticed). That the centre of mass above the polygon is enough is proved without torque limits; that it is necessary holds with any limits. The reported ZMP additionally needs every foot to press with at least 1/1000 N (see C15). The reduced model: for tasks that are commands to the chains of non-contact joints, as in C59 and C69. JACC_QP: the ZMP of every successful level lies in the polygon."
  },
  {
   "property": "C101",
   "status": "proved",
   "theorems": [
    "Verif.Props.C101_forces_iff",
    "Verif.Props.C101_motion_iff",
    "Verif.Props.C101_level_needs",
    "Verif.Props.C101_level_iff",
    "Verif.Props.C101_followed_iff",
    "Verif.Props.C101_nearest",
    "Verif.Props.C101_slide",
    "Verif.Props.C101_clipped",
    "Verif.Props.C101_reduced_followed_iff",
    "Verif.Props.C101_hand_stays",
    "Verif.Props.C101_reduced_nearest",
    "Verif.Props.C101_hand_change"
   ],
   "note": "For a robot at rest. The QP statements are for two or more feet and unlimited torques, as the property says; C101_slide and C101_clipped are the concrete case: followed up to 2.943 m/s², clipped beyond. C101_reduced_followed_iff: the same for the reduced model, with tasks on the contact chains; C101_hand_stays is its concrete case. C101_reduced_nearest: no nearer command could be supplied there either."
  },
  {
   "property": "C102",
   "status": "proved",
   "theorems": [
    "Verif.Props.C102_stand_iff",
    "Verif.Props.C102_lift_iff",
    "Verif.Props.C102_redistribute_iff",
    "Verif.Props.C102_never_fails",
    "Verif.Props.C102_last_foot",
    "Verif.Props.C102_mono",
    "Verif.Props.C102_blocks"
   ],
   "note": "For a robot at rest on level ground, contacts of type 6DOF; torque limits absent where QPs are concerned, as the property says. C102_blocks is the concrete case with both answers."
  },
  {
   "property": "C103",
   "status": "proved",
   "theorems": [
    "Verif.Props.C103_stands_iff",
    "Verif.Props.C103_prism",
    "Verif.Props.C103_hull",
    "Verif.Props.C103_slope",
    "Verif.Props.C103_slope_iff",
    "Verif.Props.C103_too_steep",
    "Verif.Props.C103_redistribute_iff",
    "Verif.Props.C103_topples",
    "Verif.Props.C103_never_fails",
    "Verif.Props.C103_ramp",
    "Verif.Props.C103_ramp_plane",
    "Verif.Props.C103_reduced_redistribute_iff",
    "Verif.Props.C103_reduced_never_fails",
    "Verif.Props.C103_hand_ramp",
    "Verif.Props.C103_mono",
    "Verif.Props.C103_stand_on_iff",
    "Verif.Props.C103_lift_iff",
    "Verif.Props.C103_lifted_never_fails",
    "Verif.Props.C103_lifted_redistribute_iff",
    "Verif.Props.C103_jacc",
    "Verif.Props.C103_steep_lift",
    "Verif.Props.C103_jacc_reduced",
    "Verif.Props.C103_hand_jacc",
    "Verif.Props.C103_lqp",
    "Verif.Props.C103_blocks_lqp"
   ],
   "note": "Proved for all robots, postures and placements of the feet. Exact real arithmetic; the QP solvers are parameters (exact and complete; sound suffices for C103_topples). C103_ramp and C103_ramp_plane meet the hypotheses. Lifting feet on any terrain: C103_lift_iff and what follows it, with C103_steep_lift as the concrete case. C103_jacc: the motions of the joint-acceleration QP (its hypotheses are met in C100_blocks_jacc). C103_jacc_reduced: the same for the joint-acceleration QP of the reduced model. C103_lqp: the hierarchical controller, met by C103_blocks_lqp."
  },
  {
   "property": "C11",
   "status": "partial",
   "theorems": [
    "Verif.Props.C11_upper_limit_violated",
    "Verif.Props.C11_lower_partial",
    "Verif.Props.C11_succeeds_iff_partial",
    "Verif.Props.C11_weight"
   ],
   "note": "false: both torque blocks are written to the same rows, so the upper limit is lost; lower limit, contacts, success exactly when possible, and least friction forces and moments proved"
  },
  {
   "property": "C12",
   "status": "proved",
   "theorems": [
    "Verif.Props.C12_zmp_rows",
    "Verif.Props.C12_cop_formula",
    "Verif.Props.C12_cone"
   ],
   "note": "GetZMPConstMatrix rows characterise the centre of pressure lying in the sole"
  },
  {
   "property": "C13",
   "status": "proved",
   "theorems": [
    "Verif.Props.C13_force_rows",
    "Verif.Props.C13_no_pull",
    "Verif.Props.C13_cone"
   ],
   "note": "GetForceConstMatrix rows characterise the friction pyramid"
  },
  {
   "property": "C14",
   "status": "proved",
   "theorems": [
    "Verif.Props.C14_resultant",
    "Verif.Props.C14_ratio",
    "Verif.Props.C14_finite_iff",
    "Verif.Props.C14_safe"
   ],
   "note": "Result is produced except for the 0/0 case characterised by C14_finite_iff."
  },
  {
   "property": "C15",
   "status": "partial",
   "theorems": [
    "Verif.Props.C15_out_of_range_iff",
    "Verif.Props.C15_average_partial",
    "Verif.Props.C15_zero_moment_partial",
    "Verif.Props.C15_registered_layout_partial"
   ],
   "note": "False as stated: the force vector is indexed by registry position although it is packed by active contact, so an inactive contact before an active one makes getZMP read out of range (C15_out_of_range_iff). The partial theorems cover the case where active contacts come first, and callers that pass one wrench per registered contact."
  },
  {
   "property": "C16",
   "status": "proved",
   "theorems": [
    "Verif.Props.C16_quintic",
    "Verif.Props.C16_rest_to_rest",
    "Verif.Props.C16_undefined_iff"
   ],
   "note": ""
  },
  {
   "property": "C17",
   "status": "proved",
   "theorems": [
    "Verif.Props.C17_cubic",
    "Verif.Props.C17_monotone",
    "Verif.Props.C17_undefined_iff"
   ],
   "note": ""
  },
  {
   "property": "C18",
   "status": "proved",
   "theorems": [
    "Verif.Props.C18_axis_rotations"
   ],
   "note": ""
  },
  {
   "property": "C19",
   "status": "proved",
   "theorems": [
    "Verif.Props.C19_rotation_cubic",
    "Verif.Props.C19_degenerate"
   ],
   "note": "Includes Eigen's matrix-quaternion-angle-axis conversions, modelled after Eigen 3.3."
  },
  {
   "property": "C20",
   "status": "proved",
   "theorems": [
    "Verif.Props.C20_skew",
    "Verif.Props.C20_phi_axis",
    "Verif.Props.C20_phi_zero_antisymm",
    "Verif.Props.C20_phi_zero_iff"
   ],
   "note": ""
  },
  {
   "property": "C21",
   "status": "partial",
   "theorems": [
    "Verif.Props.C21_constant",
    "Verif.Props.C21_linear",
    "Verif.Props.C21_settles",
    "Verif.Props.C21_link_constant",
    "Verif.Props.C21_link_not_filtered",
    "Verif.Props.C21_link_settles_partial",
    "Verif.Props.C21_link_unstable"
   ],
   "note": "The filter function is fully proved. The link velocity filter violates the property: it passes an old output in place of the oldest input (link.cpp:298), so it is not the low-pass of the velocity and is not stable for every cut-off."
  },
  {
   "property": "C22",
   "status": "proved",
   "theorems": [
    "Verif.Props.C22_add_link",
    "Verif.Props.C22_inertia_adds",
    "Verif.Props.C22_order"
   ],
   "note": "Merge of two links is the rigid body of the union, inertia about any point adds, and merges commute."
  },
  {
   "property": "C23",
   "status": "proved",
   "theorems": [
    "Verif.Props.C23_round_trip",
    "Verif.Props.C23_kinetic_energy",
    "Verif.Props.C23_posDef"
   ],
   "note": "Round trip in both orderings' extraction, spatial inertia is the kinetic-energy form and positive definite for physical bodies."
  },
  {
   "property": "C24",
   "status": "partial",
   "theorems": [
    "Verif.Props.C24_angular_momentum",
    "Verif.Props.C24_after_update",
    "Verif.Props.C24_stale_jacobian"
   ],
   "note": "Matrix times velocity is spin plus orbital angular momentum for every list of links; holds after every update for CalcAngularMomentumMatrix(). The overload CalcAngularMomentumMatrix(cmm) uses Jacobians that UpdateKinematics does not refresh: C24_stale_jacobian gives a counterexample."
  },
  {
   "property": "C25",
   "status": "partial",
   "theorems": [
    "Verif.Props.C25_com_partial",
    "Verif.Props.C25_com_vel_never_set",
    "Verif.Props.C25_no_update_undefined"
   ],
   "note": "The whole-body link record is right for every floating-base robot. The member com_vel is never set (proved with a witness) and UpdateKinematics(update_kinematics=false) gives NaN (proved)."
  },
  {
   "property": "C26",
   "status": "partial",
   "theorems": [
    "Verif.Props.C26_virtual_inertia",
    "Verif.Props.C26_tree_of_model",
    "Verif.Props.C26_com_inertia",
    "Verif.Props.C26_massless_link"
   ],
   "note": "Proved for every tree whose links hang directly on links with mass, including termination, and InitModelData is shown to build such a numbering; a link below a massless body is merged with the wrong pose (C26_massless_link)."
  },
  {
   "property": "C27",
   "status": "partial",
   "theorems": [
    "Verif.Props.C27_registry_partial",
    "Verif.Props.C27_order_kept",
    "Verif.Props.C27_unknown_name",
    "Verif.Props.C27_known_name",
    "Verif.Props.C27_known_number",
    "Verif.Props.C27_set_contact",
    "Verif.Props.C27_number_out_of_range_undefined"
   ],
   "note": "All parts proved for every history; false only for registration by a link number outside the table, which is undefined behaviour instead of a rejection (negation proved)."
  },
  {
   "property": "C28",
   "status": "partial",
   "theorems": [
    "Verif.Props.C28_constraint_matrix",
    "Verif.Props.C28_set_contact_jacobian",
    "Verif.Props.C28_switching_history",
    "Verif.Props.C28_stale_rows_after_clear",
    "Verif.Props.C28_first_call_undefined",
    "Verif.Props.C28_point_contact_undefined",
    "Verif.Props.C28_point_registered_undefined",
    "Verif.Props.C28_line_switched_on_undefined"
   ],
   "note": "Proved for 6-D contacts and accepted calls, over all switching histories. Refused calls after clearing leave stale rows; point and line contacts are undefined behaviour (negations proved)."
  },
  {
   "property": "C29",
   "status": "partial",
   "theorems": [
    "Verif.Props.C29_registry",
    "Verif.Props.C29_tasks_kept",
    "Verif.Props.C29_add_by_name",
    "Verif.Props.C29_set_target",
    "Verif.Props.C29_target_dimension",
    "Verif.Props.C29_priority_ignored",
    "Verif.Props.C29_add_by_name_dropped",
    "Verif.Props.C29_set_target_out_of_range_undefined",
    "Verif.Props.C29_wrong_dimension_accepted"
   ],
   "note": "Consistency proved for every history. Honouring the requested index and rejecting bad targets are false in parts of the API (negations proved)."
  },
  {
   "property": "C30",
   "status": "proved",
   "theorems": [
    "Verif.Props.C30_wrong_size",
    "Verif.Props.C30_stored_state",
    "Verif.Props.C30_kinematics_current"
   ],
   "note": "Every history and length."
  },
  {
   "property": "C31",
   "status": "partial",
   "theorems": [
    "Verif.Props.C31_latest_problem_partial",
    "Verif.Props.C31_solve_keeps_problem",
    "Verif.Props.C31_defined",
    "Verif.Props.C31_upper_rows_undefined",
    "Verif.Props.C31_stale_upper_flag",
    "Verif.Props.C31_before_size_undefined"
   ],
   "note": "Proved for every history and solver behaviour (given that reported success means a solution of the data handed over); upper-bound-only rows hand over an unwritten array, and their flag is never cleared (negations proved)."
  },
  {
   "property": "C32",
   "status": "proved",
   "theorems": [
    "Verif.Props.C32_residual_kept"
   ],
   "note": "Any solver answer, any number of levels. getNullSpace is a parameter that must return a spanning set of the kernel."
  },
  {
   "property": "C33",
   "status": "proved",
   "theorems": [
    "Verif.Props.C33_inequalities_kept",
    "Verif.Props.C33_levels_feasible",
    "Verif.Props.C33_exact",
    "Verif.Props.C33_exact_solver",
    "Verif.Props.C33_first_level",
    "Verif.Props.C33_first_level_weighted",
    "Verif.Props.C33_first_level_weights"
   ],
   "note": "Covers solveSequential, and solvefirst with any weights; also proves that every level has an exact solution and that an exact answer is optimal among the vectors keeping the earlier levels. C33_first_level_weights: with other than identity weights solvefirst records a weighted violation that later levels use unweighted, and the next level can become infeasible."
  },
  {
   "property": "C34",
   "status": "proved",
   "theorems": [
    "Verif.Props.C34_dynamics_and_torque_bound"
   ],
   "note": "ConfigureLQP + CalcControlTorqueLQP, for any solver returning a feasible point when one exists, all contact and task data. The torque bound is the constant 200 of the code, not the configured torque limit."
  },
  {
   "property": "C35",
   "status": "partial",
   "theorems": [
    "Verif.Props.C35_stack_partial",
    "Verif.Props.C35_next_level_feasible",
    "Verif.Props.C35_best",
    "Verif.Props.C35_point_contact_undefined",
    "Verif.Props.C35_needs_levels_above",
    "Verif.Props.C35_limit_ignored",
    "Verif.Props.C35_succeeds_iff",
    "Verif.Props.C35_no_motion_fails",
    "Verif.Props.C35_answers_hypotheses_met",
    "Verif.Props.C35_pass_best"
   ],
   "note": "Proved for 6-D contacts: full dynamics, fixed contacts, joint acceleration bound 10, contact conditions, accelerations of all levels above kept; also recursive feasibility, optimality, and that all levels are answered exactly when an admissible motion exists. False in the code: the user's torque limits are ignored (bound fixed at 200), and point contacts make the call undefined."
  },
  {
   "property": "C36",
   "status": "partial",
   "theorems": [
    "Verif.Props.C36_tree",
    "Verif.Props.C36_rbdl",
    "Verif.Props.C36_history",
    "Verif.Props.C36_dof_history",
    "Verif.Props.C36_fixed_recorded",
    "Verif.Props.C36_references_partial",
    "Verif.Props.C36_task_removed_partial",
    "Verif.Props.C36_references_shift",
    "Verif.Props.C36_last_task_undefined",
    "Verif.Props.C36_fixed_names_shift"
   ],
   "note": "The tree part is proved in full: the link table after DeleteLink is exactly the tree without the removed subtree, consistently renumbered and in step with the RBDL model, whose number of degrees of freedom stays right over every history. If exactly one task (not the last) is on the deleted leaf link, that task goes and the others keep their links. False in the code for references: contact numbers are never adapted and task numbers only if some task is deleted, so both then mean another link; deleting the link of the last task reads behind the task table; names of fixed bodies shift."
  },
  {
   "property": "C37",
   "status": "partial",
   "theorems": [
    "Verif.Props.C37_total_mass_iff",
    "Verif.Props.C37_delete_partial",
    "Verif.Props.C37_add_wrong",
    "Verif.Props.C37_fixed_wrong",
    "Verif.Props.C37_fixed_drops_children"
   ],
   "note": "False in the code: AddLink, ChangeLinkToFixedJoint and ChangeLinkInertia do not update the total mass. Proved: exact condition for every history; deletions alone keep it."
  },
  {
   "property": "C38",
   "status": "partial",
   "theorems": [
    "Verif.Props.C38_aligned_iff",
    "Verif.Props.C38_add_undefined",
    "Verif.Props.C38_reload"
   ],
   "note": "False in the code: AddLink on a movable joint adds no joint record, and loading a second model keeps the old joint records. Proved: exact condition for every history."
  },
  {
   "property": "C39",
   "status": "partial",
   "theorems": [
    "Verif.Props.C39_count_iff",
    "Verif.Props.C39_partition_partial",
    "Verif.Props.C39_shared_chain",
    "Verif.Props.C39_hanging_link",
    "Verif.Props.C39_added_link_missing"
   ],
   "note": "False in general: the counts add up exactly when contact chains meet in the base only and no other link hangs on a contact chain (C39_count_iff); then the lists partition the dof. A shared ancestor is entered twice, a link hanging on a contact chain puts contact joints into the non-contact list, and a link added by AddLink is in neither list."
  },
  {
   "property": "C40",
   "status": "partial",
   "theorems": [
    "Verif.Props.C40_reduction_jacobian",
    "Verif.Props.C40_projection",
    "Verif.Props.C40_finite_iff",
    "Verif.Props.C40_needs_six_joints",
    "Verif.Props.C40_consistent_inverse",
    "Verif.Props.C40_base_coupling",
    "Verif.Props.C40_order_wrong"
   ],
   "note": "Both identities proved for every mass matrix when the non-contact joints are stored last; false for other storage orders (C40_order_wrong). With fewer than six non-contact joints the reduced inertia does not exist and the factorisation fails unchecked."
  },
  {
   "property": "C41",
   "status": "partial",
   "theorems": [
    "Verif.Props.C41_contact_partial",
    "Verif.Props.C41_forces_partial",
    "Verif.Props.C41_gravity_torque_partial",
    "Verif.Props.C41_jacobian",
    "Verif.Props.C41_contact_iff",
    "Verif.Props.C41_redundant_leg_wrong"
   ],
   "note": "Proved when the contact chains have at most as many joints as the contacts have rows (and, for the torque, the contacts determine the base). The code takes contact_dof for the number of contact-chain joints: with a seven-joint leg on one flat foot the contact inertia is wrong (C41_redundant_leg_wrong); C41_contact_iff says exactly when it is right."
  },
  {
   "property": "C42",
   "status": "partial",
   "theorems": [
    "Verif.Props.C42_read_back",
    "Verif.Props.C42_round_trip_iff",
    "Verif.Props.C42_ok_iff",
    "Verif.Props.C42_detects",
    "Verif.Props.C42_shape_undefined",
    "Verif.Props.C42_missing_file",
    "Verif.Props.C42_nan_iff"
   ],
   "note": "Round trip proved for every matrix with finite entries (and only those are accepted); differing values are detected. False for a different shape or a missing file: the comparison is undefined instead of being reported (shape_undefined, missing_file). The norm is taken without rounding."
  },
  {
   "property": "C43",
   "status": "partial",
   "theorems": [
    "Verif.Props.C43_same_posture",
    "Verif.Props.C43_permutation",
    "Verif.Props.C43_command_sum",
    "Verif.Props.C43_strided_wrong",
    "Verif.Props.C43_short_array",
    "Verif.Props.C43_reset_and_qp_unused"
   ],
   "note": "Proved for contiguous arrays of sufficient length. Strided NumPy views are read as if contiguous (strided_wrong) and lengths are not checked (short_array); Reset and the QP variant are never effective (reset_and_qp_unused)."
  },
  {
   "property": "C44",
   "status": "partial",
   "theorems": [
    "Verif.Props.C44_position",
    "Verif.Props.C44_position_rotation_modes",
    "Verif.Props.C44_feedforward",
    "Verif.Props.C44_error_equation",
    "Verif.Props.C44_error_energy",
    "Verif.Props.C44_arrives",
    "Verif.Props.C44_end_velocity_bias",
    "Verif.Props.C44_orientation",
    "Verif.Props.C44_orientation_no_feedforward",
    "Verif.Props.C44_rotation_retimes_position",
    "Verif.Props.C44_orientation_ends",
    "Verif.Props.C44_gains",
    "Verif.Props.C44_orientation_arrives",
    "Verif.Props.C44_orientation_rests",
    "Verif.Props.C44_orientation_stuck",
    "Verif.Props.turns_exists"
   ],
   "note": "Position feedback: proved in full for acceleration gain 1 (linear error equation, energy never grows); after the trajectory ends, a point that accelerates as commanded converges to the target and comes to rest for all positive gains (C44_arrives). Orientation, after the trajectory ends, with one gain Kp for all axes: it always comes to rest (C44_orientation_rests), at the target exponentially fast if it has less energy than at rest half a turn away (C44_orientation_arrives); motions as commanded exist (turns_exists). False for orientation: no feed-forward acceleration (orientation_no_feedforward); half a turn from the target a link stays at rest for ever (orientation_stuck). False at rest at the target when an end velocity is requested (end_velocity_bias)."
  },
  {
   "property": "C45",
   "status": "partial",
   "theorems": [
    "Verif.Props.C45_copy_partial",
    "Verif.Props.C45_source_damaged",
    "Verif.Props.C45_fresh_target",
    "Verif.Props.C45_not_copied",
    "Verif.Props.C45_undefined_iff",
    "Verif.Props.C45_limits_solvers"
   ],
   "note": "False in the code as stated: if the number of contacts differs, the source's own contact switches are overwritten (indeterminate for a fresh target); com_pos and the joint table are never copied; with equal task counts but fewer QP solvers in the target the copy writes out of range. Proved: with matching contact tables the source is untouched and everything assigned agrees."
  },
  {
   "property": "C46",
   "status": "partial",
   "theorems": [
    "Verif.Props.C46_limit_violated",
    "Verif.Props.C46_one_task_partial"
   ],
   "note": "false: every level sees only the gravity torque; negation proved for every exact solver"
  },
  {
   "property": "C47",
   "status": "partial",
   "theorems": [
    "Verif.Props.C47_single_support_undefined",
    "Verif.Props.C47_defined_partial"
   ],
   "note": "false in single support (ill-formed product), proved for more than six contact rows"
  },
  {
   "property": "C48",
   "status": "proved",
   "theorems": [
    "Verif.Props.C48_command_kept",
    "Verif.Props.C48_kept_iff",
    "Verif.Props.C48_kept_torque",
    "Verif.Props.C48_kept_met",
    "Verif.Props.C48_reduced_kept_iff_partial"
   ],
   "note": "command_kept: safe without any contact torque. kept_iff: two or more feet, exact and complete solver; no command is changed if and only if every initial part of the task list can be made safe by a torque that moves nothing. The same is proved for the reduced model with tasks on the contact chains and no torque limits (C48_reduced_kept_iff_partial); tasks outside the chains record no change there (C92)."
  },
  {
   "property": "C49",
   "status": "partial",
   "theorems": [
    "Verif.Props.C49_second_contact",
    "Verif.Props.C49_closed_form_partial",
    "Verif.Props.C49_defined",
    "Verif.Props.C49_wrong_pair",
    "Verif.Props.C49_hypotheses_met"
   ],
   "note": "Holds when the two active contacts are the first two registered ones (closed_form_partial, for every robot whose base moves both feet rigidly); the closed form always reads the first two registered contacts, so with contacts 2 and 3 active the resulting wrenches are not the redistributed ones (wrong_pair)."
  },
  {
   "property": "C50",
   "status": "partial",
   "theorems": [
    "Verif.Props.C50_axis_transform_partial",
    "Verif.Props.C50_opposite",
    "Verif.Props.C50_undefined_iff"
   ],
   "note": "False for opposite directions, where the result is the point reflection -1 (C50_opposite)."
  },
  {
   "property": "C51",
   "status": "proved",
   "theorems": [
    "Verif.Props.C51_compose",
    "Verif.Props.C51_power"
   ],
   "note": "Composition of spatial transforms and adjoints, and invariance of power."
  },
  {
   "property": "C52",
   "status": "partial",
   "theorems": [
    "Verif.Props.C52_rows",
    "Verif.Props.C52_feedback_partial",
    "Verif.Props.C52_com",
    "Verif.Props.C52_custom_point_velocity_wrong",
    "Verif.Props.C52_com_custom_undefined",
    "Verif.Props.C52_com_orientation_mixed",
    "Verif.Props.C52_custom_task_erased"
   ],
   "note": "Rows proved for all tasks, links and modes. The desired acceleration is right except for modes with a user-given point, whose velocity is computed with the unrotated point (negation proved); C52_feedback_partial covers all other modes. On the centre of mass: position modes right, custom point undefined, orientation mixes base orientation with mean angular velocity (proved). A link added to a custom task makes each update erase the user's Jacobian (proved)."
  },
  {
   "property": "C53",
   "status": "partial",
   "theorems": [
    "Verif.Props.C53_position",
    "Verif.Props.C53_position_partial",
    "Verif.Props.C53_orientation",
    "Verif.Props.C53_unset",
    "Verif.Props.C53_window_overwritten",
    "Verif.Props.C53_limits_ignored",
    "Verif.Props.C53_limit_exceeded"
   ],
   "note": "Gains and goals: proved for every history. False for the time window (shared between the two trajectories, the later call wins) and for the error limits (stored, never used); negations proved."
  },
  {
   "property": "C54",
   "status": "partial",
   "theorems": [
    "Verif.Props.C54_qp_partial",
    "Verif.Props.C54_second_call_undoes",
    "Verif.Props.C54_alternates",
    "Verif.Props.C54_previous_contact_torque_dropped"
   ],
   "note": "holds with QP and an exact solver; false without QP: the calls alternate between redistributing and not (proved for every number of calls)"
  },
  {
   "property": "C55",
   "status": "partial",
   "theorems": [
    "Verif.Props.C55_same_motion_partial",
    "Verif.Props.C55_first_task_partial",
    "Verif.Props.C55_free_task_first_undefined",
    "Verif.Props.C55_free_after_chain_undefined",
    "Verif.Props.C55_third_free_task_disturbs",
    "Verif.Props.C55_chain_below_free_disturbs"
   ],
   "note": "Same motion proved for any number of chain and centre-of-mass tasks followed by at most two tasks outside the contact chains; first task exact for every stack. False for other stacks: negations."
  },
  {
   "property": "C56",
   "status": "partial",
   "theorems": [
    "Verif.Props.C56_history_partial",
    "Verif.Props.C56_type_partial",
    "Verif.Props.C56_custom_partial",
    "Verif.Props.C56_order_partial",
    "Verif.Props.C56_contact_switch_undefined",
    "Verif.Props.C56_custom_both_undefined",
    "Verif.Props.C56_two_hands_undefined"
   ],
   "note": "Type characterised for every history; right while the place of the link does not change. False after a contact switch, for custom tasks over base and arm, and for two-link tasks: negations."
  },
  {
   "property": "C57",
   "status": "partial",
   "theorems": [
    "Verif.Props.C57_levels_partial",
    "Verif.Props.C57_contact_bound_partial",
    "Verif.Props.C57_task_missed",
    "Verif.Props.C57_contact_force_violated"
   ],
   "note": "False in the code: every level minimises its miss plus an acceleration-energy term of the same weight. Proved: what each level minimises exactly and among which motions, that lower levels keep what higher ones achieved, a bound on the contact miss, and two robots (task, contact force) where an attainable goal is missed with any exact solver."
  },
  {
   "property": "C58",
   "status": "partial",
   "theorems": [
    "Verif.Props.C58_contacts_hold_partial",
    "Verif.Props.C58_command_kept_partial",
    "Verif.Props.C58_free_tasks_partial",
    "Verif.Props.C58_limit_size_undefined",
    "Verif.Props.C58_free_task_unchecked"
   ],
   "note": "Proved for task stacks on the contact chains: contacts and limits of the full robot hold, admissible commands are kept. With tasks outside the chains: what the torque consists of and which torque was checked (C58_free_tasks_partial). False in general: a task outside the contact chains is not checked (C58_free_task_unchecked); a limit of another size is undefined."
  },
  {
   "property": "C59",
   "status": "partial",
   "theorems": [
    "Verif.Props.C59_contacts_hold_partial",
    "Verif.Props.C59_finite_iff_partial",
    "Verif.Props.C59_same_torques_partial",
    "Verif.Props.C59_succeeds_iff_partial",
    "Verif.Props.C59_single_support_stale",
    "Verif.Props.C59_stale_torque_moves"
   ],
   "note": "Proved with more than six contact rows: success exactly when a good torque of the full robot exists, and the answer is the best such torque; only the lower limit is enforced (C11). False in single support: the old contact torque is kept."
  },
  {
   "property": "C60",
   "status": "proved",
   "theorems": [
    "Verif.Props.C60_fails_iff",
    "Verif.Props.C60_never_fails",
    "Verif.Props.C60_failure_keeps",
    "Verif.Props.C60_failure_safe",
    "Verif.Props.C60_first_task_best",
    "Verif.Props.C60_redistribution_after"
   ],
   "note": "Double support (more than six contact rows); single support is undefined (C47)."
  },
  {
   "property": "C61",
   "status": "partial",
   "theorems": [
    "Verif.Props.C61_limit_kept_partial",
    "Verif.Props.C61_no_limit_partial",
    "Verif.Props.C61_limit_becomes_zero",
    "Verif.Props.C61_wrong_size_undefined",
    "Verif.Props.C61_zero_limit_no_torque",
    "Verif.Props.C61_attached_link_stops_robot",
    "Verif.Props.C61_joint_count_partial",
    "Verif.Props.C61_loaded_count_partial",
    "Verif.Props.C61_fixed_base_count"
   ],
   "note": "False in the code: any structural change after SetTorqueLimit leaves a limit of zero on every joint. The partial theorems cover histories without structural change and floating-base joint counts."
  },
  {
   "property": "C62",
   "status": "partial",
   "theorems": [
    "Verif.Props.C62_motions",
    "Verif.Props.C62_stack_partial",
    "Verif.Props.C62_all_tasks_partial",
    "Verif.Props.C62_next_level_feasible",
    "Verif.Props.C62_best_partial",
    "Verif.Props.C62_arm_torque_unbounded",
    "Verif.Props.C62_succeeds_iff",
    "Verif.Props.C62_answers_hypotheses_met"
   ],
   "note": "Proved for 6-D contacts and contact-chain joints stored first: motions of the reduced system are exactly the projections of motions of the robot; a successful stack plans a real motion with the predicted forces, bounds on the contact-chain joints and the accelerations of the levels above kept; optimality for contact-chain tasks; the stack is answered exactly when the robot has a motion within the imposed bounds. False in the code: the torque bound is not imposed on joints outside the contact chains (negation with a witness robot)."
  },
  {
   "property": "C63",
   "status": "partial",
   "theorems": [
    "Verif.Props.C63_motion_iff",
    "Verif.Props.C63_accelerating_base_fails",
    "Verif.Props.C63_task_iff",
    "Verif.Props.C63_no_deviation_iff",
    "Verif.Props.C63_plan_kept_iff",
    "Verif.Props.C63_follows_partial",
    "Verif.Props.C63_command_iff",
    "Verif.Props.C63_task_disturbs_rest",
    "Verif.Props.C63_arm_torque_unbounded",
    "Verif.Props.C63_always_succeeds",
    "Verif.Props.C63_other_rows_undefined",
    "Verif.Props.C63_wrong_size_refused"
   ],
   "note": "False in general, with exact conditions: the plan is carried out iff the base does not accelerate and the deviation is zero; proved in full (C63_follows_partial) for a resting base, a command whose angular part is parallel to the lever arm, and a compatible task."
  },
  {
   "property": "C64",
   "status": "partial",
   "theorems": [
    "Verif.Props.C64_undefined_iff",
    "Verif.Props.C64_free_undefined_iff",
    "Verif.Props.C64_reduced_plan",
    "Verif.Props.C64_chain_torque",
    "Verif.Props.C64_levels_partial",
    "Verif.Props.C64_free_levels_partial",
    "Verif.Props.C64_task_value",
    "Verif.Props.C64_motion_iff",
    "Verif.Props.C64_plan_lost",
    "Verif.Props.C64_task_missed",
    "Verif.Props.C64_hand_stays",
    "Verif.Props.C64_load_refused",
    "Verif.Props.C64_rest_held_partial"
   ],
   "note": "The full property is false in the code: task order can write out of range (C64_undefined_iff), free-limb weight is bounded like a torque (C64_load_refused), planned free accelerations and hand commands are never met exactly (C64_plan_lost, C64_hand_stays). Proved: exact condition for definedness, dynamics and torque bounds of every answer, what each level minimises, exact condition for the joined plan to be a motion, rest kept at the contact level."
  },
  {
   "property": "C65",
   "status": "partial",
   "theorems": [
    "Verif.Props.C65_new_object",
    "Verif.Props.C65_accepts_iff",
    "Verif.Props.C65_level_count",
    "Verif.Props.C65_first_answers_partial",
    "Verif.Props.C65_removed_task_followed"
   ],
   "note": "False in the code: levels are appended but written by index, so a second configuration is refused or leaves old and blank levels (C65_accepts_iff, C65_level_count, C65_removed_task_followed). Proved: a new object computes what the controller describes; after any accepted history the first answers are those of a new object."
  },
  {
   "property": "C66",
   "status": "partial",
   "theorems": [
    "Verif.Props.C66_same_as_fresh_partial",
    "Verif.Props.C66_answers_partial",
    "Verif.Props.C66_undefined_iff",
    "Verif.Props.C66_constraint_violated",
    "Verif.Props.C66_writes_outside"
   ],
   "note": "False in the code when the number of free directions of a level changes between solves: a lost direction leaves a meaningless variable that lets the answer violate a higher level's inequality (C66_constraint_violated), a gained one makes the solver write outside its matrices (C66_writes_outside; C66_undefined_iff says exactly when). Proved: with unchanged layout every later solve equals a fresh one (C66_same_as_fresh_partial) and is hierarchically optimal (C66_answers_partial). OSQP's warm start is not modelled."
  },
  {
   "property": "C67",
   "status": "partial",
   "theorems": [
    "Verif.Props.C67_safe",
    "Verif.Props.C67_all_alive",
    "Verif.Props.C67_independent_partial",
    "Verif.Props.C67_never_released",
    "Verif.Props.C67_copy_shares"
   ],
   "note": "Memory safety holds for every history (C67_safe); independence of objects holds in programs without copies (C67_independent_partial). Release is false: no solver is ever freed (C67_all_alive, C67_never_released). Independence of copies is false (C67_copy_shares)."
  },
  {
   "property": "C68",
   "status": "partial",
   "theorems": [
    "Verif.Props.C68_same_as_full_partial",
    "Verif.Props.C68_forces_partial",
    "Verif.Props.C68_not_twelve_joints",
    "Verif.Props.C68_other_contacts",
    "Verif.Props.C68_hypotheses_met"
   ],
   "note": "Proved for contact chains with twelve joints: same answer as the full model (C68_same_as_full_partial) and what it does to the motion (C68_forces_partial, feet at the first two registered contacts, as in C49). False for any other number of chain joints (C68_not_twelve_joints); undefined for twelve chain joints and other contacts (C68_other_contacts)."
  },
  {
   "property": "C69",
   "status": "partial",
   "theorems": [
    "Verif.Props.C69_never_fails_partial",
    "Verif.Props.C69_fails_iff_partial",
    "Verif.Props.C69_failure_zero",
    "Verif.Props.C69_reduced_torque_kept",
    "Verif.Props.C69_after_failure",
    "Verif.Props.C69_hypotheses_met"
   ],
   "note": "When it fails is proved for six-dimensional contacts, several feet and regular tasks; the part on what a failure leaves behind is false of the code: negation proved with a concrete robot."
  },
  {
   "property": "C70",
   "status": "partial",
   "theorems": [
    "Verif.Props.C70_partition_iff",
    "Verif.Props.C70_removed_undefined",
    "Verif.Props.C70_kept_partial",
    "Verif.Props.C70_added_missing",
    "Verif.Props.C70_com_task",
    "Verif.Props.C70_reload_partial",
    "Verif.Props.C70_reload_wrong"
   ],
   "note": "False in the code: C70_partition_iff says it holds exactly for histories that take no link off and add none on a movable joint; the negations give what happens otherwise (undefined after any removal; added coordinates missing; wrong joint numbers after loading a larger robot)."
  },
  {
   "property": "C71",
   "status": "partial",
   "theorems": [
    "Verif.Props.C71_pose",
    "Verif.Props.C71_fixed_partial",
    "Verif.Props.C71_readd_partial",
    "Verif.Props.C71_fixed_before_update",
    "Verif.Props.C71_readd_sliding",
    "Verif.Props.C71_rebuild_sliding",
    "Verif.Props.C71_rebuild_iff",
    "Verif.Props.C71_rebuild_wrong",
    "Verif.Props.C71_rebuild_undefined"
   ],
   "note": "The code violates the property: fixing a link before the first kinematics update uses frames never written, InitModelWithLinkJoint does not transpose the joint rotation, and loading gives a sliding (prismatic) joint a record without type, so such a link is lost when it is added again and no model can be rebuilt. The partial theorems cover a link without children after an update, on a revolute or sliding joint for fixing, on a revolute joint for re-adding."
  },
  {
   "property": "C72",
   "status": "partial",
   "theorems": [
    "Verif.Props.C72_layout_partial",
    "Verif.Props.C72_delete_config_partial",
    "Verif.Props.C72_add_repairs",
    "Verif.Props.C72_every_joint_updated",
    "Verif.Props.C72_delete_base_undefined",
    "Verif.Props.C72_delete_spherical_wrong",
    "Verif.Props.C72_lambda_loop"
   ],
   "note": "The code violates the property for a floating base that is deleted; for joints of one degree of freedom it is proved for every history."
  },
  {
   "property": "C73",
   "status": "partial",
   "theorems": [
    "Verif.Props.C73_not_derivative",
    "Verif.Props.C73_error_partial",
    "Verif.Props.C73_rest_nonzero",
    "Verif.Props.C73_off_chain"
   ],
   "note": "False in the code: GetJacDot differs from the derivative of the link's Jacobian for every robot, motion and time, in either order of the rows (C73_not_derivative); in the column of the joint on the world it is the derivative plus the joint's axis (C73_error_partial); not zero at rest (C73_rest_nonzero). True part: columns of joints off the chain (C73_off_chain)."
  },
  {
   "property": "C74",
   "status": "partial",
   "theorems": [
    "Verif.Props.C74_history_independent",
    "Verif.Props.C74_cycle_safe",
    "Verif.Props.C74_gravity_cycle",
    "Verif.Props.C74_no_contact_undefined",
    "Verif.Props.C74_missing_contact_calc",
    "Verif.Props.C74_force_needs_gravity",
    "Verif.Props.C74_stale_contact_calc"
   ],
   "note": "A whole cycle is proved to depend on nothing earlier and to be safe on success, a gravity-only cycle to hold the robot still; false for other orders: no contacts, missing or outdated contact calculation, force before gravity compensation."
  },
  {
   "property": "C75",
   "status": "partial",
   "theorems": [
    "Verif.Props.C75_limit_ignored",
    "Verif.Props.C75_unbounded",
    "Verif.Props.C75_task_followed_partial"
   ],
   "note": "False: the limit is never applied and the command is unbounded. Proved: the first task is followed exactly on the contacts switched on."
  },
  {
   "property": "C76",
   "status": "partial",
   "theorems": [
    "Verif.Props.C76_after_full_calls_partial",
    "Verif.Props.C76_same_contacts_partial",
    "Verif.Props.C76_cycle_safe_partial",
    "Verif.Props.C76_reported_force_partial",
    "Verif.Props.C76_gravity_keeps_torques",
    "Verif.Props.C76_gravity_only_moves",
    "Verif.Props.C76_single_support_keeps",
    "Verif.Props.C76_force_needs_full_gravity",
    "Verif.Props.C76_wrong_force",
    "Verif.Props.C76_contact_switch_undefined",
    "Verif.Props.C76_cycle_least_partial"
   ],
   "note": "False in the code: stale torques with gravity compensation alone and on one contact, contact force with the gravity term of another state, tasks undefined after a contact switch. Proved: with two or more contacts, after calls without reduced task control or with the same contacts, a cycle depends on nothing earlier; a successful cycle on the contact chains is safe after any calls; the force reported in closed form."
  },
  {
   "property": "C77",
   "status": "partial",
   "theorems": [
    "Verif.Props.C77_backward_error",
    "Verif.Props.C77_exact_iff",
    "Verif.Props.C77_unit_free",
    "Verif.Props.C77_gap_partial",
    "Verif.Props.C77_gravity_iff",
    "Verif.Props.C77_gravity_kept_partial",
    "Verif.Props.C77_heavy_joint_falls",
    "Verif.Props.C77_gravity_violated",
    "Verif.Props.C77_task_accel",
    "Verif.Props.C77_task_iff",
    "Verif.Props.C77_task_row_ignored",
    "Verif.Props.C77_task_violated",
    "Verif.Props.C77_returned_exact",
    "Verif.Props.C77_outcome",
    "Verif.Props.C77_two_contacts_undefined"
   ],
   "note": "False in general: a joint 10^6 times heavier than another is not held (C77_gravity_violated), a task row is ignored when another is 10^3 times smaller (C77_task_violated), and with more than six contact rows the computation is undefined (C77_two_contacts_undefined). Proved for every matrix and column order: the result is the exact pseudo-inverse of a matrix within 1e-6 of the largest column; it is exact iff the rank found is the rank, for which a gap of the singular values suffices; gravity compensation and one task are exact iff nothing is dropped. Stacks of several tasks with dropped columns are not analysed."
  },
  {
   "property": "C78",
   "status": "partial",
   "theorems": [
    "Verif.Props.C78_gravity_iff",
    "Verif.Props.C78_command_partial",
    "Verif.Props.C78_qp_first_partial",
    "Verif.Props.C78_qp_one_partial",
    "Verif.Props.C78_gravity_jump",
    "Verif.Props.C78_redistribute_jump",
    "Verif.Props.C78_qp_jump"
   ],
   "note": "False in general: three negations with witnesses (feet coming into line, closed-form redistribution in tandem stance, QP on the edge of feasibility). Proved: gravity compensation is continuous for all loads exactly where the rank of the contacts' base columns is locally constant; gravity compensation plus a task stack of any height (no QP) is continuous where the contacts are independent, hold the base and all tasks are computable; with QP task control and an exact solver the acceleration of the first task (and for one task the torque) is continuous wherever some command of the first task can be carried out with a margin. Missing: continuity of the lower levels of the QP; the contact torque, which the QP does not determine."
  },
  {
   "property": "C79",
   "status": "partial",
   "theorems": [
    "Verif.Props.C79_exclusive",
    "Verif.Props.C79_sequential",
    "Verif.Props.C79_current",
    "Verif.Props.C79_lockstep",
    "Verif.Props.C79_no_deadlock",
    "Verif.Props.C79_finishes",
    "Verif.Props.C79_fair",
    "Verif.Props.C79_state_partial",
    "Verif.Props.C79_command",
    "Verif.Props.C79_com_stale",
    "Verif.Props.C79_own_tasks_lost",
    "Verif.Props.C79_switches_lost",
    "Verif.Props.C79_hypotheses_met"
   ],
   "note": "Proved for all schedules, numbers of cycles and divisions of a copy into steps: exclusive use of the shared robot, no deadlock, termination under fairness, equality with the sequential program, each command belongs to the state measured in the same cycle. False: the control thread's centre of mass, its own tasks and all contact switches do not survive the copies (C79_com_stale, C79_own_tasks_lost, C79_switches_lost, with the concrete run C79_hypotheses_met)."
  },
  {
   "property": "C80",
   "status": "partial",
   "theorems": [
    "Verif.Props.C80_motion",
    "Verif.Props.C80_gravity",
    "Verif.Props.C80_contact_force",
    "Verif.Props.C80_closed_command",
    "Verif.Props.C80_qp_cycle_partial",
    "Verif.Props.C80_redistribute_qp",
    "Verif.Props.C80_angles",
    "Verif.Props.C80_redistribute_angle",
    "Verif.Props.C80_redistribute_place",
    "Verif.Props.C80_redistribute_yaw_partial",
    "Verif.Props.C80_redistribute_heading",
    "Verif.Props.C80_redistribute_heading_nan",
    "Verif.Props.C80_zmp",
    "Verif.Props.C80_zmp_none",
    "Verif.Props.C80_kinematics",
    "Verif.Props.C80_kinematics_seen",
    "Verif.Props.C80_position_command",
    "Verif.Props.C80_position_gain",
    "Verif.Props.C80_orientation_command_partial",
    "Verif.Props.C80_half_turn",
    "Verif.Props.C80_hypotheses_met"
   ],
   "note": "Holds for kinematics, gravity compensation, contact forces, task control with and without QP (QP: return value, gravity and task torque; the contact torque of the QP is not unique), redistribution with QP and the ZMP. False for redistribution without QP (roll angle taken for yaw; other torque or NaN), for PD gains that differ along x and y, and for trajectories of exactly half a turn; each negation with an explicit robot or task. Contacts of type 6DOF in the QP parts; exact reals."
  },
  {
   "property": "C81",
   "status": "partial",
   "theorems": [
    "Verif.Props.C81_gravity",
    "Verif.Props.C81_closed",
    "Verif.Props.C81_forces",
    "Verif.Props.C81_qp_cycle_partial",
    "Verif.Props.C81_redistribute_last",
    "Verif.Props.C81_redistribute_differs",
    "Verif.Props.C81_points_last",
    "Verif.Props.C81_split",
    "Verif.Props.C81_split_differs",
    "Verif.Props.C81_closed_form_partial",
    "Verif.Props.C81_closed_form_differs",
    "Verif.Props.C81_zmp_partial",
    "Verif.Props.C81_zmp_differs",
    "Verif.Props.C81_lqp",
    "Verif.Props.C81_jacc",
    "Verif.Props.C81_jacc_success"
   ],
   "note": "gravity compensation, task control without QP and contact forces for every order; task control with QP for feet each of which determines the base, by exact solvers; contact redistribution depends on the order (negations proved for the QP and the closed form) and is invariant where the last contact stays last, resp. where some split keeps both feet; point contacts registered last give no result (negation); zero moment point invariant when all registered contacts are on (negation otherwise); hierarchical controller: the accelerations of every task for every order of 6-D contacts, on a robot that could stand still (C81_lqp); joint-acceleration QP: the same success and the same accelerations of every level for every order of 6-D contacts (C81_jacc, C81_jacc_success)"
  },
  {
   "property": "C82",
   "status": "partial",
   "theorems": [
    "Verif.Props.C82_rows",
    "Verif.Props.C82_closed",
    "Verif.Props.C82_qp_partial",
    "Verif.Props.C82_units",
    "Verif.Props.C82_qp_units_differ",
    "Verif.Props.C82_units_base_differs",
    "Verif.Props.C82_units_met",
    "Verif.Props.C82_order_met",
    "Verif.Props.C81_lqp",
    "Verif.Props.C82_lqp_sums_differ",
    "Verif.Props.C82_jacc_rows"
   ],
   "note": "Order of registration: proved for every robot, with undefined cases matching (C82_rows, C82_closed), with the QP for exact solvers that answer every solvable problem (C82_qp_partial: return value, gravity torque and task torque; the torque for contact forces need not be unique). Units and axes: proved without QP when the contacts determine the base (C82_units). False with the QP (C82_qp_units_differ) and without QP when the contacts do not determine the base (C82_units_base_differs). Hierarchical controller: rows of a task in another order, turned round or in other units (each row by itself) leave the accelerations of every task as they are, on a robot that could stand still (C81_lqp). False for sums of rows (C82_lqp_sums_differ). Joint-acceleration QP: rows of a task in another order, turned round or in another orthonormal frame leave the accelerations of every level as they are (C82_jacc_rows)."
  },
  {
   "property": "C83",
   "status": "partial",
   "theorems": [
    "Verif.Props.C83_motion",
    "Verif.Props.C83_contact_force",
    "Verif.Props.C83_task",
    "Verif.Props.C83_speed",
    "Verif.Props.C83_compensated",
    "Verif.Props.Lqp.C83_lqp",
    "Verif.Props.C83_tracking",
    "Verif.Props.C83_tracking_met",
    "Verif.Props.C83_task_missed",
    "Verif.Props.C83_slips"
   ],
   "note": "False of the code: C83_task_missed (a task), C83_slips (a contact). Proved: for every robot, velocity and torque the motion and force differ from those at rest by terms independent of the torque (C83_motion, C83_contact_force, C83_task), quadratic in the velocity and zero at rest (C83_speed); with RBDL's bias force, contacts without drift and the task drift subtracted, tasks are attained (C83_compensated); the hierarchical QP misses only by the drift (C83_lqp); a point controlled by the closed form comes within a multiple of the velocity terms of its target (C83_tracking). Missing for the full property: the code."
  },
  {
   "property": "C84",
   "status": "partial",
   "theorems": [
    "Verif.Props.C84_motion",
    "Verif.Props.C84_gravity",
    "Verif.Props.C84_contact_force",
    "Verif.Props.C84_closed_command",
    "Verif.Props.C84_qp_cycle_partial",
    "Verif.Props.C84_redistribute_qp",
    "Verif.Props.C84_redistribute_closed",
    "Verif.Props.C84_units_partial",
    "Verif.Props.C84_units_wrong",
    "Verif.Props.C84_lqp",
    "Verif.Props.C84_jacc",
    "Verif.Props.C84_jacc_success",
    "Verif.Props.C84_jacc_hypotheses_met"
   ],
   "note": "Order and direction of the joints do not matter: proved for gravity compensation, reported contact forces, task control with and without QP (torque for the contact forces left out, see C86) and both ways of contact redistribution; for the accelerations of every task of the hierarchical controller on a robot that could stand still (C84_lqp). Units: proved for one foot, false on two feet (C84_units_wrong). Full model; in the reduced model the order matters (C40_order_wrong). Joint-acceleration QP with 6-D contacts: the same success and the same accelerations of every level (C84_jacc, C84_jacc_success)."
  },
  {
   "property": "C85",
   "status": "partial",
   "theorems": [
    "Verif.Props.C85_motion",
    "Verif.Props.C85_gravity",
    "Verif.Props.C85_contact_force",
    "Verif.Props.C85_closed_command",
    "Verif.Props.C85_qp_cycle_partial",
    "Verif.Props.C85_redistribute_qp",
    "Verif.Props.C85_redistribute_closed",
    "Verif.Props.C85_zmp_partial",
    "Verif.Props.C85_zmp_wrong",
    "Verif.Props.C85_jacc_wrong",
    "Verif.Props.C85_lqp_units_partial",
    "Verif.Props.C85_lqp_wrong"
   ],
   "note": "Proved for the motion, the compensation of the weight, reported contact forces, control with and without QPs and both redistributions. False for the ZMP of weak contacts (C85_zmp_wrong) and for the joint-acceleration QP (C85_jacc_wrong). Missing: the contact torque of the QP cycle, which need not be unique (C86); units of length; the reduced model. Hierarchical controller: the units of mass and time do not matter while torques and joint accelerations have room in the built-in bounds of 200 and 5 and the robot could stand still (C85_lqp_units_partial), and matter otherwise (C85_lqp_wrong)."
  },
  {
   "property": "C86",
   "status": "partial",
   "theorems": [
    "Verif.Props.C86_gravity_least",
    "Verif.Props.C86_torque_least",
    "Verif.Props.C86_energy_least",
    "Verif.Props.C86_one_task_least",
    "Verif.Props.C86_qp_energy_least",
    "Verif.Props.C86_qp_torque_wrong",
    "Verif.Props.C86_lqp_energy_least",
    "Verif.Props.C86_jacc_energy_least"
   ],
   "note": "Proved for gravity compensation, every stack of tasks without QP, and the energy of the motion with the QP for any solver. False for the torque with the QP (C86_qp_torque_wrong): the cost does not weigh the contact torque. Missing: the reduced model other than through C55. Hierarchical controller: every task answer has the least energy of all admissible motions that give this task and those above the same accelerations, on a robot that could stand still (C86_lqp_energy_least). Joint-acceleration QP with 6-D contacts and an exact solver: the same for every level, with equality only for equal accelerations (C86_jacc_energy_least)."
  },
  {
   "property": "C87",
   "status": "partial",
   "theorems": [
    "Verif.Props.C87_sampled",
    "Verif.Props.C87_wrong",
    "Verif.Props.C87_met"
   ],
   "note": "False as stated for every positive gain (C87_wrong); C87_sampled gives the exact condition on gains and period, for the position law after the end of the trajectory. C87_met: runs exist from every start. Missing: the rotation law."
  },
  {
   "property": "C88",
   "status": "partial",
   "theorems": [
    "Verif.Props.C88_task_safe",
    "Verif.Props.C88_redistribute_safe",
    "Verif.Props.C88_first_task",
    "Verif.Props.C88_never_fails",
    "Verif.Props.C88_never_fails_met",
    "Verif.Props.C88_lower_level_fails",
    "Verif.Props.C88_lqp_dynamics",
    "Verif.Props.C88_lqp_contacts",
    "Verif.Props.C88_jacc_stack",
    "Verif.Props.C88_jacc_best",
    "Verif.Props.C88_jacc_next",
    "Verif.Props.C88_jacc_never_fails",
    "Verif.Props.C88_jacc_motion",
    "Verif.Props.C88_jacc_hypotheses_met",
    "Verif.Props.C88_reduced_safe_partial",
    "Verif.Props.C88_reduced_never_fails_partial",
    "Verif.Props.C88_reduced_hypotheses_met",
    "Verif.Props.C88_levels",
    "Verif.Props.C88_reduced_levels_partial",
    "Verif.Props.C88_reduced_levels_met"
   ],
   "note": "Torque limits, contacts and the first task are off by at most the tolerance; no level fails if solvability is decided with the same tolerance. False otherwise (C88_lower_level_fails): a tolerance used up at one level makes the next unsolvable. The hierarchical controller keeps the floating-base rows exactly, and torque bounds, contact conditions and joint accelerations within the tolerances at every level, without accumulation. The joint-acceleration QP: every level is admissible up to the tolerance, its answer is the best one up to the tolerance, levels above are kept up to twice the tolerance, no level fails if an admissible motion exists, and the caused motion differs from the answer by at most a fixed multiple of the tolerance. With the reduced model: safety within the tolerance for tasks on the contact chains, and no failure of a robot that can stand. At every level, with the full model and on the contact chains of the reduced model, the change of the command is at most the tolerance above the least one. Missing: tasks outside the contact chains of the reduced model."
  },
  {
   "property": "C89",
   "status": "partial",
   "theorems": [
    "Verif.Props.C89_gravity_power",
    "Verif.Props.C89_internal_power",
    "Verif.Props.C89_stack_power",
    "Verif.Props.C89_task_power",
    "Verif.Props.C89_balance",
    "Verif.Props.C89_hold",
    "Verif.Props.C89_keeps_moving",
    "Verif.Props.C89_damping",
    "Verif.Props.C89_damping_wrong",
    "Verif.Props.C89_met",
    "Verif.Props.C89_qp_command",
    "Verif.Props.C89_qp_damping"
   ],
   "note": "Energy balance proved for every robot, motion and stack of tasks without QP; the damping part holds for equal gains and is false for gains that differ between axes (C89_damping_wrong). With the QP: one task of one row damps also when limits or contacts keep the command from being followed (C89_qp_damping). Missing: higher stacks with QP; the proportional part of the feedback, which has no potential in joint space."
  },
  {
   "property": "C90",
   "status": "partial",
   "theorems": [
    "Verif.Props.C90_stand",
    "Verif.Props.C90_weight",
    "Verif.Props.C90_payload_sinks",
    "Verif.Props.C90_task_direction",
    "Verif.Props.C90_one_row",
    "Verif.Props.C90_scaled",
    "Verif.Props.C90_heavier",
    "Verif.Props.C90_task_missed"
   ],
   "note": "The last sentence is false: C90_task_missed, a task of one row attains 3/4 of its command because one joint inertia is wrong. All other sentences are proved for all true and assumed masses that share the geometry; kinematic errors are out of scope."
  },
  {
   "property": "C91",
   "status": "partial",
   "theorems": [
    "Verif.Props.C91_motion",
    "Verif.Props.C91_gravity_mirror",
    "Verif.Props.C91_closed_mirror",
    "Verif.Props.C91_forces_mirror",
    "Verif.Props.C91_qp_mirror_partial",
    "Verif.Props.C91_redistribute_mirror",
    "Verif.Props.C91_gravity",
    "Verif.Props.C91_closed",
    "Verif.Props.C91_forces",
    "Verif.Props.C91_qp_partial",
    "Verif.Props.C91_redistribute_lopsided",
    "Verif.Props.C91_hypotheses_met",
    "Verif.Props.C91_kinematics",
    "Verif.Props.C91_kinematics_symmetric",
    "Verif.Props.C91_position_command",
    "Verif.Props.C91_orientation_command_partial",
    "Verif.Props.C91_half_turn",
    "Verif.Props.C91_lqp_mirror",
    "Verif.Props.C91_lqp",
    "Verif.Props.C91_jacc_mirror",
    "Verif.Props.C91_jacc",
    "Verif.Props.C91_jacc_hypotheses_met"
   ],
   "note": "Kinematics, task commands, gravity torque, task torque without QP, contact forces and the QP task torque of the mirror image are the mirrored ones, and are symmetric for a symmetric robot whatever the order of the feet. The redistribution by QP is not symmetric (C91_redistribute_lopsided), though it mirrors when the feet are registered in the same order (C91_redistribute_mirror); a trajectory of exactly half a turn is not mirrored (C91_half_turn). Hierarchical controller: the accelerations of every task mirror, whatever the order of the contacts, on a robot that could stand still (C91_lqp_mirror, C91_lqp). Missing: the contact torque inside the QP cycle, contacts that are not 6-D, redistribution in closed form. Joint-acceleration QP with 6-D contacts: mirrored accelerations on every level (C91_jacc_mirror), symmetric ones for a symmetric robot (C91_jacc)."
  },
  {
   "property": "C92",
   "status": "partial",
   "theorems": [
    "Verif.Props.C92_result",
    "Verif.Props.C92_success",
    "Verif.Props.C92_failure_partial",
    "Verif.Props.C92_flags",
    "Verif.Props.C92_plain_partial",
    "Verif.Props.C92_flag_stale",
    "Verif.Props.C92_single",
    "Verif.Props.C92_single_least",
    "Verif.Props.C92_single2",
    "Verif.Props.C92_single2_size",
    "Verif.Props.C92_attained",
    "Verif.Props.C92_change_stale",
    "Verif.Props.C92_reduced_result",
    "Verif.Props.C92_reduced_success_partial",
    "Verif.Props.C92_reduced_failure_partial",
    "Verif.Props.C92_reduced_flags_partial",
    "Verif.Props.C92_reduced_flag_missing",
    "Verif.Props.C92_levels_least",
    "Verif.Props.C92_levels_met",
    "Verif.Props.C92_reduced_levels_least_partial"
   ],
   "note": "After a successful call with QP every record describes the call, whatever was recorded before, and the robot attains the command changed as recorded. False for calls without QP (stale flag and change), for tasks at and below a failing level, and for the contact part left by the second single-level function. Reduced model: the same for tasks on the contact chains; tasks outside them keep old records, and a failure of their QP sets no flag (negation). Negations and what does hold are listed. With an exact solver the change recorded at every level is the least possible below the levels above (C92_levels_least). C92_reduced_levels_least_partial: the same for the reduced model, for a chain task below chain tasks."
  },
  {
   "property": "C93",
   "status": "partial",
   "theorems": [
    "Verif.Props.C93_moderates",
    "Verif.Props.C93_lower",
    "Verif.Props.C93_nonexpansive",
    "Verif.Props.C93_first_task",
    "Verif.Props.C93_slows",
    "Verif.Props.C93_first_change",
    "Verif.Props.C93_hypotheses_met",
    "Verif.Props.C93_reduced_moderates_partial",
    "Verif.Props.C93_reduced_nonexpansive_partial",
    "Verif.Props.C93_reduced_hypotheses_met",
    "Verif.Props.C93_jacc_moderates",
    "Verif.Props.C93_jacc_nonexpansive",
    "Verif.Props.C93_jacc_still",
    "Verif.Props.C93_jacc_reduced_moderates_partial",
    "Verif.Props.C93_lqp_moderates_partial",
    "Verif.Props.C93_lqp_nonexpansive",
    "Verif.Props.C93_within",
    "Verif.Props.C93_within_direction"
   ],
   "note": "QP control of the full robot: proved for stacks of any depth; with the reduced model for the tasks on the contact chains. Joint-acceleration QP and hierarchical controller: standing still for the first task (and every task when all commands are zero), changes of the command at any level; the hierarchical controller measures each row relative to the length of its Jacobian row. Missing: the tasks outside the contact chains of the reduced model (no change is recorded for them), standing still below the first level of the joint-acceleration QP and the hierarchical controller. With solvers exact only up to a tolerance: size and direction for the first task (C93_within, C93_within_direction), not for lower ones."
  },
  {
   "property": "C94",
   "status": "partial",
   "theorems": [
    "Verif.Props.C94_qp_follows_partial",
    "Verif.Props.C94_qp_follows_determined",
    "Verif.Props.C94_qp_weak_joint",
    "Verif.Props.C94_jacc_never",
    "Verif.Props.C94_jacc_share",
    "Verif.Props.C94_jacc_com",
    "Verif.Props.C94_jacc_half",
    "Verif.Props.C94_jacc_miss_partial",
    "Verif.Props.C94_lqp_never",
    "Verif.Props.C94_lqp_share",
    "Verif.Props.C94_level_kept",
    "Verif.Props.C94_reduced_level_kept_partial",
    "Verif.Props.C94_reduced_level_met",
    "Verif.Props.C96_jacc_follows_only_rest",
    "Verif.Props.C96_lqp_follows_only_rest",
    "Verif.Props.C96_jacc_reduced_follows_only_rest_partial"
   ],
   "note": "False as stated. QP control: proved for the least-energy motion (partial), and false with one weak joint (weak_joint). Joint-acceleration QP and hierarchical controller: proved that a nonzero command is never followed exactly where the robot could stand still, with the share that is lost at least, and an upper bound of the miss for the joint-acceleration QP. Every level of QP control, with the levels above as recorded: the commanded value is not changed if it could be followed safely (level_kept; reduced model for tasks on the contact chains). Whole stacks of the joint-acceleration QP (full and reduced model) and of the hierarchical controller are followed only if all commands are zero (C96_*_follows_only_rest). Missing: an upper bound of the miss for lower levels of the joint-acceleration QP."
  },
  {
   "property": "C95",
   "status": "partial",
   "theorems": [
    "Verif.Props.C95_qp_success",
    "Verif.Props.C95_qp_no_worse",
    "Verif.Props.C95_first_task",
    "Verif.Props.C95_redistribute_success",
    "Verif.Props.C95_redistribute_less",
    "Verif.Props.C95_jacc_success",
    "Verif.Props.C95_jacc_effort",
    "Verif.Props.C95_reduced_success",
    "Verif.Props.C95_reduced_no_worse_partial",
    "Verif.Props.C95_second_task_worse",
    "Verif.Props.C95_lqp_no_worse",
    "Verif.Props.C95_jacc_no_worse",
    "Verif.Props.C95_jacc_reduced_success",
    "Verif.Props.C95_jacc_reduced_no_worse_partial",
    "Verif.Props.C95_unused_room",
    "Verif.Props.C95_reduced_unused_room_partial",
    "Verif.Props.C95_jacc_unused_room",
    "Verif.Props.C95_jacc_reduced_unused_room",
    "Verif.Props.C95_lqp_unused_room"
   ],
   "note": "Proved for task control with QP and the joint-acceleration QP (full and reduced model, all levels), contact redistribution, and the hierarchical controller on a robot that could stand still, for 6-D contacts and exact solvers. The joint-acceleration QP and the hierarchical controller ignore the torque limits that were set, so for them only feet and friction change. The every-task version is false (C95_second_task_worse). Missing: the hierarchical controller where the robot could not stand still and with the reduced model; the correction for tasks outside the contact chains (the code does not record it). Unused room (what the looser robot does within the tighter limits is what the tighter robot does) is proved for all four controllers and the reduced QP with tasks on the contact chains."
  },
  {
   "property": "C96",
   "status": "partial",
   "theorems": [
    "Verif.Props.C96_blend",
    "Verif.Props.C96_motion",
    "Verif.Props.C96_scale",
    "Verif.Props.C96_limited_not_blended",
    "Verif.Props.C96_reduced_blend_partial",
    "Verif.Props.C96_reduced_scale_partial",
    "Verif.Props.C96_jacc_follows_only_rest",
    "Verif.Props.C96_lqp_follows_only_rest",
    "Verif.Props.C96_jacc_reduced_follows_only_rest_partial"
   ],
   "note": "Proved for CalcTaskControlTorque with QP on the full model, and on the reduced model for tasks on the contact chains; missing: tasks outside the contact chains (the code records nothing about changes of their commands). C96_limited_not_blended: false of commands that are not followed. The joint-acceleration QP and the hierarchical controller weigh effort against tasks: on a robot that could stand still they follow only zero commands (C96_jacc_follows_only_rest, C96_lqp_follows_only_rest; C96_jacc_reduced_follows_only_rest_partial with the reduced model)."
  },
  {
   "property": "C97",
   "status": "partial",
   "theorems": [
    "Verif.Props.C97_defined_iff",
    "Verif.Props.C97_posture_partial",
    "Verif.Props.C97_registered",
    "Verif.Props.C97_switch_first",
    "Verif.Props.C97_more_joints_no_orientation",
    "Verif.Props.C97_task_link_unchecked"
   ],
   "note": "Proved for robots with 33 joints; exact condition for the constructor to be defined. False for other robots: undefined for fewer joints, no orientation for more (negation), second task on a link that need not exist (negation)."
  },
  {
   "property": "C98",
   "status": "partial",
   "theorems": [
    "Verif.Props.C98_lift_motion",
    "Verif.Props.C98_set_down_motion",
    "Verif.Props.C98_gravity_iff",
    "Verif.Props.C98_lift_safe_partial",
    "Verif.Props.C98_set_down_safe",
    "Verif.Props.C98_first_task",
    "Verif.Props.C98_lift_jumps",
    "Verif.Props.C98_hypotheses_met",
    "Verif.Props.C47_single_support_undefined"
   ],
   "note": "True for unloaded contacts; the gravity compensation jumps when the last other contact carried load (C98_gravity_iff says exactly when, C98_lift_jumps gives a robot). Lifting down to one contact makes QP task control undefined (C47), so the QP statement needs two or more contacts. Missing: how far the QP answer itself changes."
  },
  {
   "property": "C99",
   "status": "partial",
   "theorems": [
    "Verif.Props.C99_balance",
    "Verif.Props.C99_weight",
    "Verif.Props.C99_gravity",
    "Verif.Props.C99_held_iff",
    "Verif.Props.C99_zmp_partial",
    "Verif.Props.C99_zmp_still_partial",
    "Verif.Props.C99_blocks_stand",
    "Verif.Props.C99_blocks_gravity",
    "Verif.Props.C99_step_zmp_off"
   ],
   "note": "The balance of forces and moments holds for every robot, torque and placement of feet. The claim about the ZMP is proved for feet at one height that press with at least 1/1000 N and are registered before the lifted ones (otherwise see C15), and is false for feet at different heights (C99_step_zmp_off). Robot at rest (no velocity terms), exact reals."
  }
 ]
}