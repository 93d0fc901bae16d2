{"claims": [
 {"property": "C01", "status": "proved", "theorems": ["Tf2.C01_cache_window", "Tf2.C01_negative_duration", "Tf2.C01_size", "Tf2.C01_bounded"], "note": ""},
 {"property": "C02", "status": "proved", "theorems": ["Tf2.C02_order_independent"], "note": ""},
 {"property": "C03", "status": "proved", "theorems": ["Tf2.C03_rejection", "Tf2.C03_accepted_stored"], "note": ""},
 {"property": "C04", "status": "proved", "theorems": ["Tf2.C04_no_ub", "Tf2.C04_succeeds_iff", "Tf2.C04_latest", "Tf2.C04_between", "Tf2.C04_on_stamp", "Tf2.C04_durations"], "note": ""},
 {"property": "C05", "status": "proved", "theorems": ["Tf2.C05_exact_stamp"], "note": "over the reals; for all quaternions, unit or not"},
 {"property": "C06", "status": "proved", "theorems": ["Tf2.C06_interpolation"], "note": "over the reals"},
 {"property": "C07", "status": "proved", "theorems": ["Tf2.C07_no_mixing", "Tf2.C07_parent_agrees"], "note": ""},
 {"property": "C08", "status": "proved", "theorems": ["Tf2.C08_static_always"], "note": ""},
 {"property": "C09", "status": "proved", "theorems": ["Tf2.C09_first_decides"], "note": ""},
 {"property": "C10", "status": "proved", "theorems": ["Tf2.C10_malformed", "Tf2.C10_pose"], "note": ""},
 {"property": "C11", "status": "proved", "theorems": ["Tf2.C11_refused_no_effect"], "note": ""},
 {"property": "C12", "status": "proved", "theorems": ["Tf2.C12_numbering"], "note": ""},
 {"property": "C13", "status": "proved", "theorems": ["Tf2.C13_canTransform_iff"], "note": ""},
 {"property": "C14", "status": "proved", "theorems": ["Tf2.C14_canTransform_fixed_iff", "Tf2.C14_halves"], "note": ""},
 {"property": "C15", "status": "proved", "theorems": ["Tf2.C15_path_composition", "Tf2.C15_common_ancestor", "Tf2.C15_stamp"], "note": ""},
 {"property": "C16", "status": "proved", "theorems": ["Tf2.C16_inverse", "Tf2.C16_symmetric", "Tf2.C16_inverse_pose", "Tf2.C16_same_stamp", "Tf2.C16_time_zero"], "note": ""},
 {"property": "C17", "status": "proved", "theorems": ["Tf2.C17_compose", "Tf2.C17_connectivity_equivalence", "Tf2.C17_compose_pose", "Tf2.C17_same_stamp", "Tf2.C17_time_zero_finding"], "note": ""},
 {"property": "C18", "status": "proved", "theorems": ["Tf2.C18_endless_source", "Tf2.C18_endless_target", "Tf2.C18_too_deep_source", "Tf2.C18_too_deep_target", "Tf2.C18_depth_finding"], "note": "termination is the structural recursion of the model on the code's own depth counter"},
 {"property": "C19", "status": "proved", "theorems": ["Tf2.C19_failure_class"], "note": ""},
 {"property": "C20", "status": "proved", "theorems": ["Tf2.C20_common_time", "Tf2.C20_lowest_exists", "Tf2.C20_unconnected", "Tf2.C20_latest_can_fail_finding", "Tf2.C20_both_ways"], "note": "for newest-transform paths that end within the depth limit and stamps below TIME_MAX"},
 {"property": "C21", "status": "proved", "theorems": ["Tf2.C21_same_frame"], "note": ""},
 {"property": "C22", "status": "proved", "theorems": ["Tf2.C22_bad_names"], "note": ""},
 {"property": "C23", "status": "proved", "theorems": ["Tf2.C23_slash"], "note": ""},
 {"property": "C24", "status": "proved", "theorems": ["Tf2.C24_clear", "Tf2.C24_fresh_after_clear", "Tf2.C24_requests"], "note": ""},
 {"property": "C25", "status": "proved", "theorems": ["Tf2.C25_other_frames", "Tf2.C25_lookup_unaffected"], "note": ""},
 {"property": "C26", "status": "proved", "theorems": ["Tf2.C26_read_your_write", "Tf2.C26_read_your_write_pose"], "note": "the laws of rigid motions assumed of the transforms are proved for quaternion + translation by pose_laws"},
 {"property": "C27", "status": "proved", "theorems": ["Tf2.C27_fixed_frame"], "note": "over the reals, unit quaternions"},
 {"property": "C28", "status": "proved", "theorems": ["Tf2.C28_operations", "Tf2.C28_matrix_of_quaternion", "Tf2.C28_quaternion_of_matrix", "Tf2.C28_round_trip", "Tf2.C28_homomorphism"], "note": "over the reals; with rounding in C92_round_trip and C92_product"},
 {"property": "C29", "status": "proved", "theorems": ["Tf2.C29_group", "Tf2.C29_inverse"], "note": "over the reals"},
 {"property": "C30", "status": "proved", "theorems": ["Tf2.C30_construction", "Tf2.C30_extraction", "Tf2.C30_gimbal_finding", "Tf2.C30_gimbal_counterexample"], "note": "over the reals; at gimbal lock the code is proved wrong"},
 {"property": "C31", "status": "proved", "theorems": ["Tf2.C31_equivalent", "Tf2.C31_yaw", "Tf2.C31_gimbal_finding"], "note": "over the reals; at gimbal lock the code is proved wrong"},
 {"property": "C32", "status": "proved", "theorems": ["Tf2.C32_at_most_once", "Tf2.C32_right_arguments", "Tf2.C32_handles", "Tf2.C32_cancelled", "Tf2.C32_callback_removed", "Tf2.C32_no_undefined", "Tf2.C32_callback_handles_fresh", "Tf2.C32_cancel_in_flight_finding", "Tf2.C32_cancel_truncates_finding"], "note": "as long as fewer than 2^64-1 requests are created"},
 {"property": "C33", "status": "proved", "theorems": ["Tf2.C33_answerable_answered", "Tf2.C33_no_throw", "Tf2.C33_answer_is_right", "Tf2.C33_immediate_answers", "Tf2.C33_nothing_lost", "Tf2.C33_latest_request_finding", "Tf2.C33_throw_loses_answers_finding"], "note": "as long as fewer than 2^64-1 requests are created"},
 {"property": "C34", "status": "proved", "theorems": ["Tf2.C34_dangling_arguments_finding"], "note": "the expected property is false; the theorem proves that for every scheduled callback"},
 {"property": "C35", "status": "proved", "theorems": ["Tf2.C35_listing", "Tf2.C35_path", "Tf2.C35_fixed", "Tf2.C35_finding"], "note": ""},
 {"property": "C36", "status": "proved", "theorems": ["Tf2.C36_frame_strings", "Tf2.C36_get_parent", "Tf2.C36_all_frames", "Tf2.C36_unknown_parent_finding"], "note": ""},
 {"property": "C37", "status": "proved", "theorems": ["Tf2.C37_conservation", "Tf2.C37_numbered", "Tf2.C37_told", "Tf2.C37_direct", "Tf2.C37_no_undefined", "Tf2.C37_clear_in_flight_finding"], "note": "every interleaving of the atomic steps of add, callbacks, clear and settings; C37_no_undefined needs that no transformable callback is removed meanwhile, the finding shows what happens otherwise"},
 {"property": "C38", "status": "proved", "theorems": ["Tf2.C38_bounded", "Tf2.C38_counter", "Tf2.C38_oldest_dropped", "Tf2.C38_fifo", "Tf2.C38_shrink_finding"], "note": ""},
 {"property": "C39", "status": "proved", "theorems": ["Tf2.C39_callback_pass", "Tf2.C39_add_iff", "Tf2.C39_passed_was_ready", "Tf2.C39_settings", "Tf2.C39_wrong_drop_finding", "Tf2.C39_changed_targets_finding"], "note": ""},
 {"property": "C40", "status": "proved", "theorems": ["Tf2.C40_conservation", "Tf2.C40_once", "Tf2.C40_due", "Tf2.C40_deadline", "Tf2.C40_lookup", "Tf2.C40_check", "Tf2.C40_check_uninterrupted", "Tf2.C40_goal_uninterrupted", "Tf2.C40_cancel", "Tf2.C40_no_escape", "Tf2.C40_cancel_lost_finding", "Tf2.C40_overflow_finding"], "note": "every interleaving of the steps of goalCB, checkTransforms, cancelCB, clock and buffer; two findings show where a goal gets no terminal status or a cancel is lost"},
 {"property": "C41", "status": "proved", "theorems": ["Tf2.C41_round_trip", "Tf2.C41_no_result", "Tf2.C41_end_to_end", "Tf2.C41_goals"], "note": ""},
 {"property": "C42", "status": "proved", "theorems": ["Tf2.C42_latched", "Tf2.C42_complete", "Tf2.C42_python_finding", "Tf2.C42_slash_finding"], "note": "C++ broadcaster: exact content and order of the latched message for every sequence of calls. Findings: the Python broadcaster does not accumulate; ids a and /a are kept as two entries though buffers treat them as one frame."},
 {"property": "C43", "status": "proved", "theorems": ["Tf2.C43_calls", "Tf2.C43_effect", "Tf2.C43_message", "Tf2.C43_escape_finding"], "note": "Per history and per message, with arbitrary other calls of the buffer interleaved. Finding: std::runtime_error is not caught and loses the rest of the message."},
 {"property": "C44", "status": "proved", "theorems": ["Tf2.C44_no_thread", "Tf2.C44_stops", "Tf2.C44_returned", "Tf2.C44_available", "Tf2.C44_zero_timeout", "Tf2.C44_terminates", "Tf2.C44_lookup", "Tf2.C44_overflow_finding", "Tf2.C44_no_thread_finding"], "note": "For every trace of buffers, clock readings and ok flags seen by the steps of the call; the sleep may end at any time."},
 {"property": "C45", "status": "proved", "theorems": ["Tf2.C45_no_cycle", "Tf2.C45_progress", "Tf2.C45_exclusive", "Tf2.C45_reentrant_finding"], "note": "Any number of threads, each running any sequence of calls that is not made from a callback; lock structure of each function as in the code. Finding: a callback without queue that calls back into the filter waits for itself."},
 {"property": "C46", "status": "proved", "theorems": ["Tf2.C46_linearizable", "Tf2.C46_memory", "Tf2.C46_answer", "Tf2.C46_five_arg", "Tf2.C46_five_arg_undisturbed", "Tf2.C46_no_peek", "Tf2.C46_five_arg_finding", "Tf2.C46_race_finding"], "note": "Every schedule of any number of threads, single memory accesses, sequentially consistent memory. Findings: the five-argument lookup is not atomic and checks its arguments without the mutex."},
 {"property": "C47", "status": "proved", "theorems": ["Tf2.Geo.C47_point_vector", "Tf2.Geo.C47_quaternion", "Tf2.Geo.C47_pose", "Tf2.Geo.C47_transform", "Tf2.Geo.C47_wrench", "Tf2.Geo.C47_stamped", "Tf2.Geo.C47_compose", "Tf2.Geo.C47_identity", "Tf2.Geo.C47_isometry", "Tf2.Geo.C47_python_wrench", "Tf2.Geo.C47_child_frame_finding", "Tf2.Geo.C47_python_wrench_finding", "Tf2.Geo.C47_eigen_quaternion_finding"], "note": "All real data; composition needs only non-zero quaternions. Findings: child_frame_id is never written, Python wrench lacks the moment of the displaced force, tf2_eigen conjugates quaternions."},
 {"property": "C48", "status": "proved", "theorems": ["Tf2.Geo.C48_formula", "Tf2.Geo.C48_preserves", "Tf2.Geo.C48_compose", "Tf2.Geo.C48_trace_det"], "note": "All 36 entries, against Mathlib's matrices and PosSemidef."},
 {"property": "C49", "status": "proved", "theorems": ["Tf2.C49_overflow"], "note": ""},
 {"property": "C50", "status": "proved", "theorems": ["Tf2.C50_finding"], "note": "over the reals"},
 {"property": "C51", "status": "proved", "theorems": ["Tf2.C51_frame_content", "Tf2.C51_frame_window"], "note": ""},
 {"property": "C52", "status": "proved", "theorems": ["Tf2.Geo.C52_mutation_safe", "Tf2.Geo.C52_mutation_safe_stamped", "Tf2.Geo.C52_mutation_safe_transform"], "note": "Every assignment is a write through a reference into an arbitrary memory."},
 {"property": "C53", "status": "proved", "theorems": ["Tf2.Geo.C53_round_trip", "Tf2.Geo.C53_by_way_of", "Tf2.Geo.C53_fixed_frame", "Tf2.Geo.C53_convention"], "note": "On BufferCore lookups without waiting."},
 {"property": "C54", "status": "proved", "theorems": ["Tf2.Geo.C54_cloud", "Tf2.Geo.C54_agrees_with_points", "Tf2.Geo.C54_nonunit_finding"], "note": "Word-aligned fields; agreement needs a unit quaternion (finding: otherwise clouds and points are transformed differently)."},
 {"property": "C55", "status": "proved", "theorems": ["Tf2.C55_closed", "Tf2.C55_closed_fixed", "Tf2.C55_unit", "Tf2.C55_planar"], "note": "No algebraic laws assumed for C55_closed; instances for unit quaternions and planar motions."},
 {"property": "C56", "status": "proved", "theorems": ["Tf2.C56_order", "Tf2.C56_commute"], "note": "Excludes acceptable messages whose child is the reserved name NO_PARENT."},
 {"property": "C57", "status": "proved", "theorems": ["Tf2.C57_axis_angle", "Tf2.C57_extract", "Tf2.C57_round_trip", "Tf2.C57_small_angle_finding", "Tf2.C57_between", "Tf2.C57_angle"], "note": "Over the reals, with the tolerance as a parameter; the finding: below the tolerance the axis read is (1,0,0) whatever the rotation."},
 {"property": "C58", "status": "proved", "theorems": ["Tf2.C58_shortest_arc", "Tf2.C58_opposite", "Tf2.C58_normalize2", "Tf2.C58_plane_space", "Tf2.C58_nearest"], "note": "Over the reals, with the tolerance as a parameter."},
 {"property": "C59", "status": "proved", "theorems": ["Tf2.C59_sound", "Tf2.C59_complete", "Tf2.C59_value", "Tf2.C59_failure", "Tf2.C59_points"], "note": "Stated without mentioning the buffer state."},
 {"property": "C60", "status": "proved", "theorems": ["Tf2.C60_available", "Tf2.C60_persists", "Tf2.C60_gap_finding", "Tf2.C60_stable"], "note": ""},
 {"property": "C61", "status": "proved", "theorems": ["Tf2.C61_waits_for_something", "Tf2.C61_no_vain_wait", "Tf2.C61_add_race_finding", "Tf2.C61_targets_finding", "Tf2.C61_clear_finding"], "note": "Orderly use is a condition on each step (OrderlyRun); without it three witnesses strand a transformable message. Assumes fewer than 2^32 requests in all, no setTransform that threw after storing, and registrations that return (Healthy)."},
 {"property": "C62", "status": "proved", "theorems": ["Tf2.C62_entries", "Tf2.C62_broadcaster", "Tf2.C62_agrees", "Tf2.C62_graph", "Tf2.C62_overflow_finding"], "note": "Values printed, not their formatting; seconds as doubles are exact nanoseconds in the model. Finding: a setTransform that throws on overflow has stored its message, and the frame is reported with no recorded authority."},
 {"property": "C63", "status": "proved", "theorems": ["Tf2.Geo.C63_libraries_sound", "Tf2.Geo.C63_values", "Tf2.Geo.C63_messages", "Tf2.Geo.C63_rigid", "Tf2.Geo.C63_poses", "Tf2.Geo.C63_eigen_sign", "Tf2.Geo.C63_convert", "Tf2.Geo.C63_covariance_finding"], "note": "Real arithmetic. The external libraries enter through RotLib.Sound (an hypothesis), shown to hold of tf2's class and of the formulas of Eigen and KDL."},
 {"property": "C64", "status": "proved", "theorems": ["Tf2.Geo.C64_points", "Tf2.Geo.C64_poses", "Tf2.Geo.C64_frames", "Tf2.Geo.C64_wrenches", "Tf2.Geo.C64_twists", "Tf2.Geo.C64_power", "Tf2.Geo.C64_in_place", "Tf2.Geo.C64_nonunit_finding"], "note": "As C63; Frame*Twist and Frame*Wrench of KDL are modelled from its documentation."},
 {"property": "C65", "status": "proved", "theorems": ["Tf2.C65_late_subscriber", "Tf2.C65_late_subscriber_pose", "Tf2.C65_indistinguishable", "Tf2.C65_malformed_finding", "Tf2.C65_forgotten_parent_finding"], "note": "C65_indistinguishable covers every query (exceptions, time 0, fixed frame, listings) provided no frame is known only from a superseded static transform; C65_forgotten_parent_finding shows the proviso is needed. Delivery of the topic (latching, order per publisher) is assumed as for C42/C43. Finding: a malformed re-send shadows a valid static transform for late subscribers."},
 {"property": "C66", "status": "proved", "theorems": ["Tf2.C66_stamp_origin", "Tf2.C66_stamp_origin_fixed", "Tf2.C66_common_time_origin"], "note": ""},
 {"property": "C67", "status": "proved", "theorems": ["Tf2.Py.C67_error", "Tf2.Py.C67_monotone", "Tf2.Py.C67_idempotent", "Tf2.Py.C67_zero", "Tf2.Py.C67_out", "Tf2.Py.C67_buffer", "Tf2.Py.C67_served_stamps", "Tf2.Py.C67_read_back", "Tf2.Py.C67_collision_finding", "Tf2.Py.C67_lost_update_finding", "Tf2.Py.C67_year_2038_finding"], "note": "Rounding is any function satisfying IsFl (nearest 53-bit number); genpy.Time.to_sec, ros::Time::fromSec and rospy.Time are modelled from their documented source, which is not in /repo."},
 {"property": "C68", "status": "proved", "theorems": ["Tf2.Py.C68_agree", "Tf2.Py.C68_returned", "Tf2.Py.C68_stops", "Tf2.Py.C68_exceptions", "Tf2.Py.C68_sees", "Tf2.Py.C68_terminates", "Tf2.Py.C68_lookup", "Tf2.Py.C68_client", "Tf2.Py.C68_refused_finding", "Tf2.Py.C68_base_class_finding"], "note": "The C call holds the interpreter lock, so each check or lookup sees one state of the buffer; rospy.sleep and genpy arithmetic are external (DESIGN.md)."},
 {"property": "C69", "status": "proved", "theorems": ["Tf2.Py.C69_callback", "Tf2.Py.C69_nothing_else", "Tf2.Py.C69_effect", "Tf2.Py.C69_clears", "Tf2.Py.C69_one_at_a_time", "Tf2.Py.C69_race_finding"], "note": "check_for_reset is one step (it runs under its lock); each buffer call is one step (interpreter lock)."},
 {"property": "C70", "status": "proved", "theorems": ["Tf2.Geo.Py.C70_round_trip", "Tf2.Geo.Py.C70_by_way_of", "Tf2.Geo.Py.C70_fixed_frame", "Tf2.Geo.Py.C70_agree", "Tf2.Geo.Py.C70_unknown", "Tf2.Geo.Py.C70_new_type", "Tf2.Geo.Py.C70_takeover_finding"], "note": "Real arithmetic; PyKDL enters through RotLib.Sound; stamps pass through doubles as in C67. Agreement with C++ is for points, free vectors and poses (for wrenches see C47_python_wrench_finding)."},
 {"property": "C71", "status": "proved", "theorems": ["Tf2.Geo.Py.C71_registry", "Tf2.Geo.Py.C71_convert", "Tf2.Geo.Py.C71_round_trip", "Tf2.Geo.Py.C71_same_class", "Tf2.Geo.Py.C71_commutes", "Tf2.Geo.Py.C71_wrong_class_finding", "Tf2.Geo.Py.C71_attribute_finding", "Tf2.Geo.Py.C71_swallowed_finding"], "note": "copy.deepcopy is the identity on values; aliasing between Python objects is not modelled."},
 {"property": "C72", "status": "proved", "theorems": ["Tf2.Geo.C72_quaternion", "Tf2.Geo.C72_angles", "Tf2.Geo.C72_parameter", "Tf2.Geo.C72_outcomes", "Tf2.Geo.C72_read", "Tf2.Geo.C72_read_quaternion", "Tf2.Geo.C72_slash_finding", "Tf2.Geo.C72_norm_finding", "Tf2.Geo.C72_integer_finding"], "note": "atof, ros::init, the parameter server and the conversions of XmlRpcValue are external; real arithmetic."},
 {"property": "C73", "status": "proved", "theorems": ["Tf2.C73_outcomes", "Tf2.C73_drawn", "Tf2.C73_no_loop", "Tf2.C73_legend", "Tf2.C73_loop_finding", "Tf2.C73_cleared_finding", "Tf2.C73_name_finding", "Tf2.C73_trees_finding"], "note": "The text is modelled as what it draws; yaml.safe_load is external and enters as a parameter."},
 {"property": "C74", "status": "proved", "theorems": ["Tf2.Py.C74_angles", "Tf2.Py.C74_angles_agree", "Tf2.Py.C74_callbacks", "Tf2.Py.C74_determined", "Tf2.Py.C74_goes_on", "Tf2.Py.C74_connectivity_finding", "Tf2.Py.C74_offset_finding", "Tf2.Py.C74_cache_finding"], "note": "Real arithmetic for the angles; rospy.Timer and genpy are external; the text is represented by the values printed."},
 {"property": "C75", "status": "proved", "theorems": ["Tf2.Geo.Py.C75_outcomes", "Tf2.Geo.Py.C75_points", "Tf2.Geo.Py.C75_agrees", "Tf2.Geo.Py.C75_by_way_of", "Tf2.Geo.Py.C75_round_trip", "Tf2.Geo.Py.C75_field_order_finding"], "note": "sensor_msgs.point_cloud2 is external and modelled after its source; data are words of four bytes holding real numbers."},
 {"property": "C76", "status": "proved", "theorems": ["Tf2.Diag.C76_similar", "Tf2.Diag.C76_progress", "Tf2.Diag.C76_converges", "Tf2.Diag.C76_approximation_finding", "Tf2.Diag.C76_negative_threshold_finding"], "note": "Real arithmetic; TF2SIMD_EPSILON is a parameter eps with 0 < eps <= 1."},
 {"property": "C77", "status": "proved", "theorems": ["Tf2.C77_drift", "Tf2.C77_zero", "Tf2.C77_tolerance", "Tf2.C77_unit", "Tf2.C77_refused_finding", "Tf2.C77_scale_finding"], "note": "Real arithmetic. C77_zero covers answers with stamp 0 (only static transforms, asked at time 0)."},
 {"property": "C78", "status": "proved", "theorems": ["Tf2.Scalar.C78_normalize", "Tf2.Scalar.C78_classes", "Tf2.Scalar.C78_true_turns", "Tf2.Scalar.C78_half_turn_finding", "Tf2.Scalar.C78_fast", "Tf2.Scalar.C78_fast_order", "Tf2.Scalar.C78_fast_exact"], "note": "tf2NormalizeAngle on doubles (infinities and NaN left out); tf2Atan2Fast over the reals with the true pi."},
 {"property": "C79", "status": "proved", "theorems": ["Tf2.MinMax.C79_axes", "Tf2.MinMax.C79_clamp", "Tf2.MinMax.C79_min_max", "Tf2.MinMax.C79_box", "Tf2.MinMax.C79_axes4", "Tf2.MinMax.C79_absolute", "Tf2.MinMax.C79_large_finding", "Tf2.MinMax.C79_exchanged_finding", "Tf2.MinMax.C79_select", "Tf2.MinMax.C79_swap"], "note": "NaN is not modelled."},
 {"property": "C80", "status": "proved", "theorems": ["Tf2.InPlace.C80_vectors", "Tf2.InPlace.C80_scale", "Tf2.InPlace.C80_scale_finding", "Tf2.InPlace.C80_setValue", "Tf2.InPlace.C80_setValue_finding", "Tf2.InPlace.C80_quaternions", "Tf2.InPlace.C80_products", "Tf2.InPlace.C80_mult", "Tf2.InPlace.C80_mult_finding", "Tf2.InPlace.C80_copy", "Tf2.InPlace.C80_interpolate", "Tf2.InPlace.C80_equal", "Tf2.InPlace.C80_equal_finding", "Tf2.InPlace.C80_skew", "Tf2.InPlace.C80_skew_finding", "Tf2.InPlace.C80_gl", "Tf2.InPlace.C80_gl_back", "Tf2.InPlace.C80_gl_finding", "Tf2.InPlace.C80_divide", "Tf2.InPlace.C80_plane", "Tf2.InPlace.C80_plane_finding", "Tf2.InPlace.C80_swap", "Tf2.InPlace.C80_swap_finding", "Tf2.InPlace.C80_unswap"], "note": "Exact arithmetic; objects of one type are the same or apart (C++ objects do not overlap in part); a scalar argument may be any cell."},
 {"property": "C81", "status": "proved", "theorems": ["Tf2.C81_answer", "Tf2.C81_null", "Tf2.C81_answer_fixed", "Tf2.C81_reason", "Tf2.C81_reason_fixed", "Tf2.C81_unknown", "Tf2.C81_unknown_fixed", "Tf2.C81_illegal_finding", "Tf2.C81_lookup", "Tf2.C81_lookup_fixed", "Tf2.C81_lookup_names", "Tf2.C81_room", "Tf2.C81_ros", "Tf2.C81_far_finding", "Tf2.C81_silent_finding"], "note": "Printing of a time or duration is a parameter (`Render`) of which only length and absence of NUL are assumed. The text-free lookup models of the other properties leave out the std::runtime_error of C81_far_finding: they describe requests for which no stamp on the way is 2^31 s or more from the time asked for (C81_lookup makes this exact)."},
 {"property": "C82", "status": "proved", "theorems": ["Tf2.Py.C82_shaped", "Tf2.Py.C82_only", "Tf2.Py.C82_typeError", "Tf2.Py.C82_missing_finding", "Tf2.Py.C82_stamp", "Tf2.Py.C82_component", "Tf2.Py.C82_message", "Tf2.Py.C82_text", "Tf2.Py.C82_number_finding", "Tf2.Py.C82_strict_finding", "Tf2.Py.C82_computed_finding", "Tf2.Py.C82_far_finding"], "note": "CPython 3's C API as quoted in Model/PySet.lean; NaN, infinities of to_sec and a raising __getattr__ with side effects are not modelled."},
 {"property": "C83", "status": "proved", "theorems": ["Tf2.C83_value", "Tf2.C83_unconnected", "Tf2.C83_forward", "Tf2.C83_back_finding"], "note": "Histories as in C59/C60 (Regular): stamps plus cache duration inside the range of ros::Time, no frame called NO_PARENT; the cache duration is positive. Ways longer than 1000 steps are excluded (C81/C19 treat them)."},
 {"property": "C84", "status": "proved", "theorems": ["Tf2.C84_rounding", "Tf2.C84_static", "Tf2.C84_double"], "note": "Model/Rounded.lean writes out the order of the operations of the source. Not modelled: NaN and infinities (the hypothesis on overflow keeps results below them), contraction into fused multiply-add, x87 excess precision. The interpolation (slerp, setInterpolate3) is one operation whose error is a hypothesis (InterpNear), absent from C84_static and C84_double. The five-argument lookup (matrix product) is C92."},
 {"property": "C85", "status": "proved", "theorems": ["Tf2.C85_interpolate", "Tf2.C85_lookup", "Tf2.C85_numbers", "Tf2.noHalfTurn_of_offered", "Tf2.C85_half_turn_finding", "Tf2.C85_sticks_finding"], "note": "The C library and ros::Duration::toSec (sec + 1e-9*nsec) are assumptions: Libm.Accurate, Rounding.toSec. Not modelled: NaN, infinities, fused multiply-add, x87 excess precision."},
 {"property": "C86", "status": "proved", "theorems": ["Tf2.C86_same_data", "Tf2.C86_congruence", "Tf2.C86_drop", "Tf2.C86_delivery", "Tf2.C86_conflict_finding"], "note": "Histories as in C59 (Regular). SameData and Indistinguishable are in Spec/SameData.lean."},
 {"property": "C87", "status": "proved", "theorems": ["Tf2.C87_speed", "Tf2.C87_rest", "Tf2.C87_hop_finding"], "note": "Exact real arithmetic (rounding is C84/C85). Finding: re-parenting makes answers jump."},
 {"property": "C88", "status": "proved", "theorems": ["Tf2.C88_account", "Tf2.C88_told", "Tf2.C88_at_most", "Tf2.C88_disconnected", "Tf2.C88_throw_finding", "Tf2.C88_clear_finding"], "note": "boost::signals2 is trusted: an emission works on the slots connected when it begins and skips those disconnected in the meantime."},
 {"property": "C89", "status": "proved", "theorems": ["Tf2.C89_reject", "Tf2.C89_accept", "Tf2.C89_rotation", "Tf2.C89_finite", "Tf2.C89_rotation5", "Tf2.C89_finite5", "Tf2.C89_again5", "Tf2.C89_infinite_finding"], "note": "Lookups with one time and with two times. Not modelled: signed zeros, fused multiply-add, x87 excess precision."},
 {"property": "C90", "status": "proved", "theorems": ["Tf2.Spin.C90_order", "Tf2.Spin.C90_drop", "Tf2.Spin.C90_lossless", "Tf2.Spin.C90_calls", "Tf2.Spin.C90_live", "Tf2.Spin.C90_destroyed", "Tf2.Spin.C90_ends", "Tf2.Spin.C90_dedicated", "Tf2.Spin.C90_crash_finding", "Tf2.Spin.C90_static_finding", "Tf2.Spin.C90_stale_finding"], "note": "roscpp (subscription queues of 100 that push out the oldest, callAvailable) is modelled after its sources as external; using_dedicated_thread_ is read and written atomically; spin_thread=false not modelled."},
 {"property": "C91", "status": "proved", "theorems": ["Tf2.Spin.C91_refines", "Tf2.Spin.C91_agree", "Tf2.Spin.C91_catches_up", "Tf2.Spin.C91_jump_finding", "Tf2.Spin.C91_conflict_finding"], "note": "Consistent and Regular as in C86: all messages for a frame come on one topic, static ones are equal, dynamic ones with equal stamps are equal; stamps plus storage time stay in range and the unknown-frame name is not used as a child. Calm: clock readings of the callbacks do not decrease, nobody else writes the buffer."},
 {"property": "C92", "status": "proved", "theorems": ["Tf2.C92_rounding", "Tf2.C92_static", "Tf2.C92_double", "Tf2.C92_lookup", "Tf2.C92_point", "Tf2.C92_product", "Tf2.C92_round_trip"], "note": "Same conditions as C84 and C85, and numbers up to 100000(L+1) do not overflow. Not modelled: fused multiply-add, x87 excess precision."},
 {"property": "C93", "status": "proved", "theorems": ["Tf2.C93_ordered", "Tf2.C93_race_free", "Tf2.C93_exact", "Tf2.C93_locks", "Tf2.C93_progress", "Tf2.C93_handle_finding"], "note": "The code's accesses and lock operations are among those of the model, so absence of races carries over; the witnesses of C93_exact leave nothing out and take paths the code can take. Constructors and destructors run alone (except stopping the listener's thread)."},
 {"property": "C94", "status": "proved", "theorems": ["Tf2.Par.C94_missed", "Tf2.Par.C94_next_set_answers", "Tf2.Par.C94_undisturbed", "Tf2.Par.C94_nothing_lost", "Tf2.Par.C94_accounting", "Tf2.Par.C94_at_most_once", "Tf2.Par.C94_right_arguments", "Tf2.Par.C94_answer_is_right", "Tf2.Par.C94_handles", "Tf2.Par.C94_no_undefined", "Tf2.Par.C94_gives_back", "Tf2.Par.C94_returns", "Tf2.Par.C94_alone", "Tf2.Par.C94_lost_wakeup_finding", "Tf2.Par.C94_same_handle_finding"], "note": "Sequentially consistent memory; C93 lists the data races of the same functions. A setTransform refused by the cache, clear(), and a test broken off by an exception count as changes after which a stored transform is needed (Settled). User callbacks do nothing."},
 {"property": "C95", "status": "proved", "theorems": ["Tf2.C95_lookup", "Tf2.C95_static", "Tf2.C95_lookup5", "Tf2.C95_static5", "Tf2.C95_same", "Tf2.C95_same5"], "note": "The IEEE 754 machine of C89 (NaN, infinities, overflow), with the bounds of C84, C85 and C92 for the machine without them. How rounding resolves ties is left open, signed zeros are not distinguished."},
 {"property": "C96", "status": "proved", "theorems": ["Tf2.Spin.C96_arrives", "Tf2.Spin.C96_available", "Tf2.Spin.C96_stays", "Tf2.Spin.C96_wait", "Tf2.Spin.C96_lookup", "Tf2.Spin.C96_two_times", "Tf2.Spin.C96_race_finding"], "note": "Finding (C96_race_finding): the wait checks again after its loop has ended; if in between a newer transform pushes an old one out, it returns false although its own check had found the transform and the deadline is far. C96_two_times is the wait and lookup with two times and a fixed frame. The order of the stamps per frame is needed for the wait, not for the availability after the steps."},
 {"property": "C97", "status": "proved", "theorems": ["Tf2.BufProg.C97_parts", "Tf2.BufProg.C97_turn", "Tf2.BufProg.C97_cancel", "Tf2.BufProg.C97_timer", "Tf2.BufProg.C97_dead", "Tf2.BufProg.C97_alive", "Tf2.BufProg.C97_result", "Tf2.BufProg.C97_answered", "Tf2.BufProg.C97_killed_finding"], "note": "Finding (C97_killed_finding): one client can end the process for everybody: a goal whose deadline cannot be represented (ROS clock plus timeout) throws in goalCB, nothing catches it; no goal that is pending is ever answered. roscpp (ros::spin calls one callback at a time; an exception that leaves a callback ends the process) is external."},
 {"property": "C98", "status": "proved", "theorems": ["Tf2.C98_not_failed", "Tf2.C98_passes", "Tf2.C98_keeps_chance", "Tf2.C98_in_time"], "note": "The converse of C39. C98_in_time asks nothing of the intermediate states of the buffer, only what is published. That callbacks read \"available\" is a hypothesis because of C34 (they are given a dangling reference); the rest of the hypotheses are needed: C39_wrong_drop_finding, C61_add_race_finding, C61_targets_finding, C61_clear_finding."},
 {"property": "C99", "status": "proved", "theorems": ["Tf2.C99_left_behind", "Tf2.C99_bounded", "Tf2.C99_clear", "Tf2.C99_destroyed", "Tf2.C99_leak_finding"], "note": "Finding: add (message_filter.h:333-372) returns through messageDropped on handle 0xffffffffffffffff without cancelling the requests it already made for the other target frames (C99_leak_finding, for every n). The same holds for an exception from stamp + tolerance. clear, and with it the destructor, frees them."},
 {"property": "C100", "status": "proved", "theorems": ["Tf2.Cells.C100_equal", "Tf2.Cells.C100_equal_transforms", "Tf2.Cells.C100_matrices", "Tf2.Cells.C100_roundtrip", "Tf2.Cells.C100_roundtrip_float", "Tf2.Cells.C100_float_again", "Tf2.Cells.C100_transform_roundtrip", "Tf2.Cells.C100_comes_back_equal", "Tf2.Cells.C100_coordinates_finding", "Tf2.Cells.C100_fourth_finding"], "note": "A Matrix3x3 is modelled as three and a Transform as four consecutive vector variables; expressions are arbitrary functions of coordinates whose result goes through the constructor with three arguments (as all of them do in Vector3.h, Matrix3x3.h and Transform.h). Zero must survive the conversion to float and equal itself."},
 {"property": "C101", "status": "proved", "theorems": ["Tf2.C101_order", "Tf2.C101_first_and_two", "Tf2.C101_all_reversed", "Tf2.C101_in_order_asked", "Tf2.C101_reversed_finding", "Tf2.C101_filter_reversed_finding"], "note": "The findings hold for every n below 2^61 (the times must stay representable). The order in which several threads' callbacks interleave is not part of it."}
]}
