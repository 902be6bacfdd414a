{"claims": [
{"property": "C01", "status": "proved", "theorems": ["Trajopt.Props.C01_out_of_range", "Trajopt.Props.C01_sample_count", "Trajopt.Props.C01_segment_samples", "Trajopt.Props.C01_tiling", "Trajopt.Props.C01_waypoint_sample"], "note": ""},
{"property": "C02", "status": "proved", "theorems": ["Trajopt.Props.C02_empty", "Trajopt.Props.C02_entry", "Trajopt.Props.C02_last", "Trajopt.Props.C02_length", "Trajopt.Props.C02_range", "Trajopt.Props.C02_steps"], "note": "Real arithmetic; the length is proved for any scalar arithmetic."},
{"property": "C03", "status": "proved", "theorems": ["Trajopt.Props.C03_last", "Trajopt.Props.C03_last_heading", "Trajopt.Props.C03_short_way"], "note": "Real arithmetic."},
{"property": "C04", "status": "proved", "theorems": ["Trajopt.Props.C04_guess_lengths", "Trajopt.Props.C04_guess_times"], "note": "Any scalar arithmetic; sample count below 2^64."},
{"property": "C05", "status": "proved", "theorems": ["Trajopt.Props.C05_start", "Trajopt.Props.C05_waypoints"], "note": "Sample 0 for any scalar arithmetic, the others in real arithmetic; headings hit if the guess heading is a unit vector."},
{"property": "C06", "status": "proved", "theorems": ["Trajopt.Props.C06_segment_points"], "note": "Real arithmetic."},
{"property": "C07", "status": "proved", "theorems": ["Trajopt.Props.C07_range", "Trajopt.Props.C07_unit_headings"], "note": "Real arithmetic."},
{"property": "C08", "status": "proved", "theorems": ["Trajopt.Props.C08_first", "Trajopt.Props.C08_first_exception", "Trajopt.Props.C08_tables"], "note": ""},
{"property": "C09", "status": "proved", "theorems": ["Trajopt.Props.C09_default_counts", "Trajopt.Props.C09_set_counts"], "note": ""},
{"property": "C10", "status": "proved", "theorems": ["Trajopt.Props.C10_append_only"], "note": ""},
{"property": "C11", "status": "proved", "theorems": ["Trajopt.Props.C11_sgmt_constraint", "Trajopt.Props.C11_wpt_constraint"], "note": ""},
{"property": "C12", "status": "proved", "theorems": ["Trajopt.Props.C12_pose_wpt", "Trajopt.Props.C12_translation_wpt", "Trajopt.Props.C12_wpt_guess"], "note": ""},
{"property": "C13", "status": "proved", "theorems": ["Trajopt.Props.C13_last", "Trajopt.Props.C13_order", "Trajopt.Props.C13_sgmt_guess"], "note": ""},
{"property": "C14", "status": "proved", "theorems": ["Trajopt.Props.C14_commute"], "note": ""},
{"property": "C15", "status": "proved", "theorems": ["Trajopt.Props.C15_rejected", "Trajopt.Props.C15_sgmt_partial_effect"], "note": ""},
{"property": "C16", "status": "proved", "theorems": ["Trajopt.Props.C16_linear_velocity"], "note": ""},
{"property": "C17", "status": "proved", "theorems": ["Trajopt.Props.C17_linear_acceleration"], "note": ""},
{"property": "C18", "status": "proved", "theorems": ["Trajopt.Props.C18_angular_velocity"], "note": ""},
{"property": "C19", "status": "partial", "theorems": ["Trajopt.Props.C19_partial", "Trajopt.Props.C19_refuted"], "note": "False as stated: C19_refuted (driving backwards satisfies the constraint). C19_partial: the velocity is a multiple, of either sign, of the direction."},
{"property": "C20", "status": "partial", "theorems": ["Trajopt.Props.C20_partial", "Trajopt.Props.C20_refuted"], "note": "False as stated: C20_refuted (opposite heading satisfies the constraint). C20_partial: position fixed, heading fixed up to a half turn."},
{"property": "C21", "status": "proved", "theorems": ["Trajopt.Props.C21_translation"], "note": ""},
{"property": "C22", "status": "proved", "theorems": ["Trajopt.Props.C22_point_at"], "note": ""},
{"property": "C23", "status": "proved", "theorems": ["Trajopt.Props.C23_point_point"], "note": ""},
{"property": "C24", "status": "partial", "theorems": ["Trajopt.Props.C24_partial", "Trajopt.Props.C24_refuted_too_strict", "Trajopt.Props.C24_refuted_too_weak"], "note": "False as stated, in both directions: C24_refuted_too_strict, C24_refuted_too_weak. C24_partial: exact meaning, squared distance at least d on non-degenerate segments."},
{"property": "C25", "status": "proved", "theorems": ["Trajopt.Props.C25_degenerate", "Trajopt.Props.C25_line_point_distance"], "note": ""},
{"property": "C26", "status": "partial", "theorems": ["Trajopt.Props.C26_closing_throws", "Trajopt.Props.C26_early_return", "Trajopt.Props.C26_negative", "Trajopt.Props.C26_no_corners", "Trajopt.Props.C26_partial", "Trajopt.Props.C26_refuted_closing", "Trajopt.Props.C26_refuted_early_return", "Trajopt.Props.C26_returns"], "note": "False as stated: C26_closing_throws, C26_refuted_closing (closing obstacle edge indexed with the bumper's corner count), C26_early_return, C26_refuted_early_return. C26_partial: exact for equal corner counts or obstacles with at most two corners. Any scalar arithmetic."},
{"property": "C27", "status": "proved", "theorems": ["Trajopt.Props.C27_add_bumpers", "Trajopt.Props.C27_bumpers", "Trajopt.Props.C27_no_bumpers", "Trajopt.Props.C27_only_bumpers"], "note": ""},
{"property": "C28", "status": "partial", "theorems": ["Trajopt.Props.C28_generated_partial", "Trajopt.Props.C28_partial", "Trajopt.Props.C28_refuted"], "note": "False as stated: C28_refuted (crossing bars). C28_partial, C28_generated_partial: true if no edges cross."},
{"property": "C29", "status": "proved", "theorems": ["Trajopt.Props.C29_problem"], "note": ""},
{"property": "C30", "status": "proved", "theorems": ["Trajopt.Props.C30_outcomes"], "note": ""},
{"property": "C31", "status": "proved", "theorems": ["Trajopt.Props.C31_segment", "Trajopt.Props.C31_waypoint"], "note": ""},
{"property": "C32", "status": "proved", "theorems": ["Trajopt.Props.C32_integration"], "note": ""},
{"property": "C33", "status": "partial", "theorems": ["Trajopt.Props.C33_partial", "Trajopt.Props.C33_pose_partial", "Trajopt.Props.C33_refuted", "Trajopt.Props.C33_refuted_speed"], "note": "False as stated: C33_refuted (without a pose constraint a heading may have norm 2) and C33_refuted_speed (the robot may then be faster than its wheels can roll). C33_partial: all headings are unit vectors if one is; C33_pose_partial: so with a pose equality anywhere."},
{"property": "C34", "status": "partial", "theorems": ["Trajopt.Props.C34_partial", "Trajopt.Props.C34_refuted"], "note": "False as stated: C34_refuted (heading flips at zero angular velocity). C34_partial: holds up to a half turn."},
{"property": "C35", "status": "proved", "theorems": ["Trajopt.Props.C35_forces"], "note": ""},
{"property": "C36", "status": "proved", "theorems": ["Trajopt.Props.C36_acceleration"], "note": ""},
{"property": "C37", "status": "proved", "theorems": ["Trajopt.Props.C37_wheel_speed"], "note": ""},
{"property": "C38", "status": "proved", "theorems": ["Trajopt.Props.C38_step"], "note": ""},
{"property": "C39", "status": "partial", "theorems": ["Trajopt.Props.C39_partial", "Trajopt.Props.C39_rectangle_partial", "Trajopt.Props.C39_refuted"], "note": "False as stated: C39_refuted (the bound on dt uses only neighbouring modules). C39_partial: holds if no smaller gap arises; C39_rectangle_partial: holds for rectangular robots."},
{"property": "C40", "status": "proved", "theorems": ["Trajopt.Props.C40_monotone", "Trajopt.Props.C40_sgmt", "Trajopt.Props.C40_wpt"], "note": ""},
{"property": "C41", "status": "proved", "theorems": ["Trajopt.Props.C41_motion"], "note": ""},
{"property": "C42", "status": "proved", "theorems": ["Trajopt.Props.C42_objective", "Trajopt.Props.C42_overflow"], "note": ""},
{"property": "C43", "status": "proved", "theorems": ["Trajopt.Props.C43_start"], "note": ""},
{"property": "C44", "status": "proved", "theorems": ["Trajopt.Props.C44_solution"], "note": ""},
{"property": "C45", "status": "proved", "theorems": ["Trajopt.Props.C45_fields", "Trajopt.Props.C45_timestamps"], "note": ""},
{"property": "C46", "status": "proved", "theorems": ["Trajopt.Props.C46_defined", "Trajopt.Props.C46_initial_guess"], "note": ""},
{"property": "C47", "status": "proved", "theorems": ["Trajopt.Props.C47_final", "Trajopt.Props.C47_never_crashes", "Trajopt.Props.C47_result", "Trajopt.Props.C47_separate"], "note": "Every step of every schedule; C47_never_crashes: for generators that were constructed from a ready builder."},
{"property": "C48", "status": "proved", "theorems": ["Trajopt.Props.C48_lost_cancel", "Trajopt.Props.C48_next_iteration", "Trajopt.Props.C48_stops", "Trajopt.Props.C48_unaffected"], "note": ""},
{"property": "C49", "status": "partial", "theorems": ["Trajopt.Props.C49_partial", "Trajopt.Props.C49_refuted"], "note": "False as stated: C49_refuted (iterations within 1/60 s of the last round call nothing). C49_partial: iterations at least 1/60 s after the last round call all callbacks."},
{"property": "C50", "status": "partial", "theorems": ["Trajopt.Props.C50_current", "Trajopt.Props.C50_order", "Trajopt.Props.C50_rate_partial", "Trajopt.Props.C50_rate_refuted", "Trajopt.Props.C50_rate_sequential_partial", "Trajopt.Props.C50_solution_partial", "Trajopt.Props.C50_solution_refuted"], "note": "False as stated: C50_rate_refuted (concurrent generations race on lastFrameTime), C50_solution_refuted (a callback may change the solution the next one sees). Order and handle hold for all schedules in which no callback throws (C50_order; otherwise C86_calls), so does currency of the solution (C50_current); the rate for generations that do not overlap (C50_rate_partial, C50_rate_sequential_partial), the solution for callbacks that do not change it (C50_solution_partial)."},
{"property": "C51", "status": "proved", "theorems": ["Trajopt.Props.C51_call", "Trajopt.Props.C51_death", "Trajopt.Props.C51_generate", "Trajopt.Props.C51_history", "Trajopt.Props.C51_new", "Trajopt.Props.C51_survives"], "note": "C51_generate needs fewer than 2^64 samples. That an exception leaving a wrapper aborts and that Result functions turn it into Err is cxx's behaviour, assumed."},
{"property": "C52", "status": "proved", "theorems": ["Trajopt.Props.C52_equal", "Trajopt.Props.C52_unequal"], "note": ""},
{"property": "C53", "status": "partial", "theorems": ["Trajopt.Props.C53_once_partial", "Trajopt.Props.C53_partial", "Trajopt.Props.C53_rectangle", "Trajopt.Props.C53_refuted"], "note": "False as stated: C53_refuted (a second call adds a second rectangle). C53_partial: one rectangle per call, in order; C53_once_partial: exact if called once."},
{"property": "C54", "status": "proved", "theorems": ["Trajopt.Props.C54_generate", "Trajopt.Props.C54_progress", "Trajopt.Props.C54_progress_defined"], "note": ""},
{"property": "C55", "status": "proved", "theorems": ["Trajopt.Props.C55_angles", "Trajopt.Props.C55_assoc", "Trajopt.Props.C55_comm", "Trajopt.Props.C55_compose", "Trajopt.Props.C55_identity", "Trajopt.Props.C55_inverse", "Trajopt.Props.C55_neg", "Trajopt.Props.C55_unit"], "note": ""},
{"property": "C56", "status": "proved", "theorems": ["Trajopt.Props.C56_action", "Trajopt.Props.C56_bindings", "Trajopt.Props.C56_isometry", "Trajopt.Props.C56_pose", "Trajopt.Props.C56_products", "Trajopt.Props.C56_promotion", "Trajopt.Props.C56_rotate"], "note": ""},
{"property": "C57", "status": "proved", "theorems": ["Trajopt.Props.C57_radians", "Trajopt.Props.C57_round_trip"], "note": ""},
{"property": "C58", "status": "proved", "theorems": ["Trajopt.Props.C58_metric", "Trajopt.Props.C58_norm", "Trajopt.Props.C58_polar", "Trajopt.Props.C58_scale"], "note": ""},
{"property": "C59", "status": "partial", "theorems": ["Trajopt.Props.C59_partial", "Trajopt.Props.C59_refuted"], "note": "False as stated: C59_refuted. C59_partial says when Angle() is a unit rotation."},
{"property": "C60", "status": "partial", "theorems": ["Trajopt.Props.C60_assign_refuted", "Trajopt.Props.C60_call", "Trajopt.Props.C60_combine", "Trajopt.Props.C60_convert_refuted", "Trajopt.Props.C60_copy_refuted", "Trajopt.Props.C60_emplace_list_partial", "Trajopt.Props.C60_emplace_list_refuted", "Trajopt.Props.C60_emplace_refuted", "Trajopt.Props.C60_equal", "Trajopt.Props.C60_equal_void", "Trajopt.Props.C60_functor", "Trajopt.Props.C60_history", "Trajopt.Props.C60_history_throwing_partial", "Trajopt.Props.C60_monad", "Trajopt.Props.C60_observe", "Trajopt.Props.C60_release_leaks", "Trajopt.Props.C60_step", "Trajopt.Props.C60_throwing_partial", "Trajopt.Props.C60_unequal_void_partial", "Trajopt.Props.C60_unequal_void_refuted"], "note": "Without exceptions from T and E every program over expected objects refines the sum type; the combinators, observers and comparisons are those of the sum type. With exceptions, for types that move without throwing, all calls but throwing emplace and copying operator=(U&&) keep every object holding one alternative. The code violates the rest: C60_assign_refuted (undefined behaviour), C60_emplace_refuted (undefined behaviour on destruction), C60_emplace_list_refuted (undefined behaviour), C60_copy_refuted (process ends instead of an exception), C60_convert_refuted (leak), C60_unequal_void_refuted (!= of expected<void, E> is inverted)."},
{"property": "C61", "status": "proved", "theorems": ["Trajopt.Props.C61_mirror"], "note": ""},
{"property": "C62", "status": "partial", "theorems": ["Trajopt.Props.C62_partial", "Trajopt.Props.C62_refuted"], "note": "False as stated: C62_refuted (a triangle aborts the process). C62_partial: aborts exactly for empty polygons and triangles."},
{"property": "C63", "status": "partial", "theorems": ["Trajopt.Props.C63_calls_partial", "Trajopt.Props.C63_generate_partial", "Trajopt.Props.C63_refuted"], "note": "False as stated: C63_refuted (generate without waypoints). C63_calls_partial: no builder call is undefined; C63_generate_partial: generate is undefined exactly without waypoints."},
{"property": "C64", "status": "proved", "theorems": ["Trajopt.Props.C64_callbacks", "Trajopt.Props.C64_drivetrain", "Trajopt.Props.C64_no_drivetrain"], "note": ""},
{"property": "C65", "status": "proved", "theorems": ["Trajopt.Props.C65_speeds"], "note": ""},
{"property": "C66", "status": "proved", "theorems": ["Trajopt.Props.C66_acceleration", "Trajopt.Props.C66_distance", "Trajopt.Props.C66_total", "Trajopt.Props.C66_turn"], "note": ""},
{"property": "C67", "status": "proved", "theorems": ["Trajopt.Props.C67_infeasible", "Trajopt.Props.C67_reach", "Trajopt.Props.C67_unreachable"], "note": ""},
{"property": "C68", "status": "proved", "theorems": ["Trajopt.Props.C68_no_time", "Trajopt.Props.C68_rest"], "note": ""},
{"property": "C69", "status": "proved", "theorems": ["Trajopt.Props.C69_heading", "Trajopt.Props.C69_integration", "Trajopt.Props.C69_limit", "Trajopt.Props.C69_limits", "Trajopt.Props.C69_problem"], "note": ""},
{"property": "C70", "status": "partial", "theorems": ["Trajopt.Props.C70_no_effect", "Trajopt.Props.C70_partial", "Trajopt.Props.C70_refuted"], "note": "False as stated: C70_refuted (squared distances are compared, so a keep-out distance of 10 mm has no effect at all within the tolerance, C70_no_effect). C70_partial: fixed positions are met to the tolerance per coordinate, point keep-out distances d to tolerance/d."},
{"property": "C71", "status": "proved", "theorems": ["Trajopt.Props.C71_circle", "Trajopt.Props.C71_forces", "Trajopt.Props.C71_motion", "Trajopt.Props.C71_point_at", "Trajopt.Props.C71_segment", "Trajopt.Props.C71_turning", "Trajopt.Props.C71_waypoint", "Trajopt.Props.C71_wheels"], "note": "Requires that the solver's values satisfy the generated constraints, fewer than 2^64 samples and nonzero wheel radii. Headings only up to half turns and circle distances only up to the square root, because of the defects in C20, C24 and C34."},
{"property": "C72", "status": "proved", "theorems": ["Trajopt.Props.C72_cut", "Trajopt.Props.C72_cut_exists", "Trajopt.Props.C72_ends", "Trajopt.Props.C72_fastest_join", "Trajopt.Props.C72_fastest_parts", "Trajopt.Props.C72_join", "Trajopt.Props.C72_join_exists"], "note": ""},
{"property": "C73", "status": "partial", "theorems": ["Trajopt.Props.C73_angle_last_partial", "Trajopt.Props.C73_angle_partial", "Trajopt.Props.C73_angle_turn", "Trajopt.Props.C73_constant", "Trajopt.Props.C73_entry_partial", "Trajopt.Props.C73_last_partial", "Trajopt.Props.C73_monotone", "Trajopt.Props.C73_refuted_last", "Trajopt.Props.C73_refuted_range"], "note": "False as stated: C73_refuted_last (Linspace(0, 1, 49) ends at 1 - 2^-53), C73_refuted_range (Linspace(0, 7, 25) ends beyond 7). C73_entry_partial, C73_last_partial, C73_angle_partial, C73_angle_last_partial: error bounds; C73_monotone, C73_constant hold exactly. Overflow, NaN and signed zeros are not modelled."},
{"property": "C74", "status": "proved", "theorems": ["Trajopt.Props.C74_error", "Trajopt.Props.C74_monotone"], "note": "Overflow and NaN are not modelled."},
{"property": "C75", "status": "partial", "theorems": ["Trajopt.Props.C75_direction_stop", "Trajopt.Props.C75_enough", "Trajopt.Props.C75_guaranteed_partial", "Trajopt.Props.C75_pose_feasible", "Trajopt.Props.C75_refuted_direction"], "note": "False for velocity directions: C75_refuted_direction (with IEEE doubles and correctly rounded cosine and sine, the constraint for pi/4 only allows standing still), C75_direction_stop (so for every angle whose rounded cosine and sine have squares adding up to less than 1). C75_guaranteed_partial, C75_enough, C75_pose_feasible: the rest. Rounding inside Sleipnir is not modelled."},
{"property": "C76", "status": "proved", "theorems": ["Trajopt.Props.C76_enough", "Trajopt.Props.C76_guaranteed", "Trajopt.Props.C76_objective"], "note": "Expressions are read exactly; rounding inside Sleipnir, overflow and NaN are not modelled."},
{"property": "C77", "status": "proved", "theorems": ["Trajopt.Props.C77_edit_call", "Trajopt.Props.C77_edit_members", "Trajopt.Props.C77_forgotten", "Trajopt.Props.C77_members", "Trajopt.Props.C77_outcomes", "Trajopt.Props.C77_problem", "Trajopt.Props.C77_rebuilt"], "note": ""},
{"property": "C78", "status": "proved", "theorems": ["Trajopt.Props.C78_fastest", "Trajopt.Props.C78_monotone", "Trajopt.Props.C78_no_modules", "Trajopt.Props.C78_optimum"], "note": ""},
{"property": "C79", "status": "proved", "theorems": ["Trajopt.Props.C79_capable", "Trajopt.Props.C79_drivable", "Trajopt.Props.C79_enough", "Trajopt.Props.C79_limits", "Trajopt.Props.C79_poses", "Trajopt.Props.C79_straight"], "note": ""},
{"property": "C80", "status": "partial", "theorems": ["Trajopt.Props.C80_fastest_partial", "Trajopt.Props.C80_refuted", "Trajopt.Props.C80_units_partial"], "note": "C80_units_partial and C80_fastest_partial hold for every path that keeps no distance from lines. C80_refuted: distances from lines are compared squared with unsquared, so that changing the unit of length turns a drivable path into one that is not."},
{"property": "C81", "status": "proved", "theorems": ["Trajopt.Props.C81_call", "Trajopt.Props.C81_history"], "note": ""},
{"property": "C82", "status": "partial", "theorems": ["Trajopt.Props.C82_both_sides", "Trajopt.Props.C82_cpp_partial", "Trajopt.Props.C82_guess_ignored", "Trajopt.Props.C82_obstacle_ignored", "Trajopt.Props.C82_rust_refuted", "Trajopt.Props.C82_shapes", "Trajopt.Props.C82_starts_between", "Trajopt.Props.C82_test_refuted", "Trajopt.Props.C82_test_undefined"], "note": "C82_cpp_partial: all seven C++ examples work. C82_rust_refuted: the Rust example is infeasible, its bumpers lying across the obstacle at the first pose. C82_test_undefined, C82_test_refuted: the skipped test sets no drivetrain (undefined behaviour) and would be infeasible with one. C82_obstacle_ignored: example 5's obstacle constrains nothing. C82_guess_ignored, C82_both_sides, C82_starts_between: example 7's guess does not choose a side."},
{"property": "C83", "status": "partial", "theorems": ["Trajopt.Props.C83_counts_partial", "Trajopt.Props.C83_default_partial", "Trajopt.Props.C83_ignored", "Trajopt.Props.C83_refuted", "Trajopt.Props.C83_stacked", "Trajopt.Props.C83_visited_partial"], "note": "False as stated: C83_refuted (too few interval counts: the remaining waypoints are ignored, C83_ignored), C83_stacked (a count of 0 puts two waypoints on one sample). C83_visited_partial, C83_default_partial, C83_counts_partial: exactly when every waypoint is visited."},
{"property": "C84", "status": "partial", "theorems": ["Trajopt.Props.C84_exact_partial", "Trajopt.Props.C84_refuted", "Trajopt.Props.C84_scale", "Trajopt.Props.C84_single", "Trajopt.Props.C84_violated"], "note": "False as stated: C84_refuted (first example program), C84_violated (whenever two waypoints are guessed at different places, apart from coincidences of the counts). C84_scale: by which factor; C84_exact_partial, C84_single: when they do."},
{"property": "C85", "status": "proved", "theorems": ["Trajopt.Props.C85_distance", "Trajopt.Props.C85_example", "Trajopt.Props.C85_fastest", "Trajopt.Props.C85_time"], "note": "The exact time requires that the wheels can roll at the greatest speed needed and that the step cap allows the time step; then torque alone limits the time."},
{"property": "C86", "status": "proved", "theorems": ["Trajopt.Props.C86_again", "Trajopt.Props.C86_calls", "Trajopt.Props.C86_exception", "Trajopt.Props.C86_only"], "note": "Assumed: an exception passes through `Solve`."},
{"property": "C87", "status": "partial", "theorems": ["Trajopt.Props.C87_copy_partial", "Trajopt.Props.C87_history_partial", "Trajopt.Props.C87_own", "Trajopt.Props.C87_refuted"], "note": "As stated it is false (C87_refuted). Proved for programs that neither copy nor move generators (the examples, tests and the Rust interface do not); copies report what their original reports while it exists unchanged; and for every program exactly what each generator reports is given by its history."},
{"property": "C88", "status": "proved", "theorems": ["Trajopt.Props.C88_abs", "Trajopt.Props.C88_add", "Trajopt.Props.C88_assert", "Trajopt.Props.C88_assert_infinite", "Trajopt.Props.C88_atan2", "Trajopt.Props.C88_compare", "Trajopt.Props.C88_div", "Trajopt.Props.C88_exact", "Trajopt.Props.C88_finite", "Trajopt.Props.C88_functions", "Trajopt.Props.C88_hypot", "Trajopt.Props.C88_mul", "Trajopt.Props.C88_nan", "Trajopt.Props.C88_numbers", "Trajopt.Props.C88_sub", "Trajopt.Props.C88_unlimited_speed", "Trajopt.Props.C88_zero_radius"], "note": ""},
{"property": "C89", "status": "proved", "theorems": ["Trajopt.Props.C89_balance", "Trajopt.Props.C89_limit", "Trajopt.Props.C89_momentum", "Trajopt.Props.C89_work"], "note": ""},
{"property": "C90", "status": "partial", "theorems": ["Trajopt.Props.C90_fastest_partial", "Trajopt.Props.C90_refuted", "Trajopt.Props.C90_stronger_partial"], "note": "False as stated: C90_refuted (motors twice as fast make a path infeasible, because the cap on time steps shrinks with wheel speed). C90_stronger_partial, C90_fastest_partial: holds for more torque and proportionally less mass and moment of inertia, wheel speeds being equal."},
{"property": "C91", "status": "partial", "theorems": ["Trajopt.Props.C91_axes_partial", "Trajopt.Props.C91_quarter_partial", "Trajopt.Props.C91_refuted"], "note": "False as stated: C91_refuted (axes turned by 45\u00b0 shrink the cap on time steps and make a path infeasible). C91_quarter_partial: true for multiples of 90\u00b0. C91_axes_partial: for any angle true wherever the step cap is the same; missing only the step cap."},
{"property": "C92", "status": "partial", "theorems": ["Trajopt.Props.C92_one_thread_partial", "Trajopt.Props.C92_only_partial", "Trajopt.Props.C92_ordered_partial", "Trajopt.Props.C92_refuted"], "note": "False as stated: C92_refuted (two Generate calls on two threads race for the static lastFrameTime, even one after the other). C92_only_partial: these are the only races, so the cancellation flag and the static's initialisation are safe; C92_ordered_partial, C92_one_thread_partial: no races if the caller orders Generate calls on different threads or uses one thread."},
{"property": "C93", "status": "partial", "theorems": ["Trajopt.Props.C93_calls", "Trajopt.Props.C93_guess", "Trajopt.Props.C93_problem", "Trajopt.Props.C93_program", "Trajopt.Props.C93_refuted", "Trajopt.Props.C93_start_iff", "Trajopt.Props.C93_start_partial"], "note": "C93_refuted: a segment with zero control intervals starts with an infinite time step and a NaN objective. C93_start_partial, C93_start_iff: otherwise all start values are the finite ones of real arithmetic. C93_calls, C93_program, C93_guess, C93_problem: the rest of the claim holds."},
{"property": "C94", "status": "partial", "theorems": ["Trajopt.Props.C94_close_partial", "Trajopt.Props.C94_refuted_drivable", "Trajopt.Props.C94_refuted_slower", "Trajopt.Props.C94_time", "Trajopt.Props.C94_wait_partial"], "note": "C94_refuted_slower: from standstill to standstill, an odd number of control intervals is slower than the even number before it. C94_refuted_drivable: a path drivable with counts [1, 1] is not with [1, 2]. C94_time: the time for every number from two on; C94_close_partial: no number N from two on is worse than any other by more than the fraction 1/N. C94_wait_partial: if the robot stands anywhere in the segment, the path stays drivable with any larger number. Missing: how the fastest time varies for other paths."},
{"property": "C95", "status": "partial", "theorems": ["Trajopt.Props.C95_calm_partial", "Trajopt.Props.C95_refuted", "Trajopt.Props.C95_refuted_turning", "Trajopt.Props.C95_straight_partial"], "note": "C95_refuted: a path that can be driven from standstill to standstill without turning cannot be driven backwards. C95_calm_partial: true if the robot stands at every waypoint, on each segment drives without turning or turns without driving, makes no half turn in no time (C106), and acceleration limits at waypoints hold along the segments that follow; C95_straight_partial is the case without turning. Turning while driving it is false even so: C95_refuted_turning."},
{"property": "C96", "status": "partial", "theorems": ["Trajopt.Props.C96_calls", "Trajopt.Props.C96_constants", "Trajopt.Props.C96_enough", "Trajopt.Props.C96_force_refuted", "Trajopt.Props.C96_guaranteed", "Trajopt.Props.C96_linspace_refuted", "Trajopt.Props.C96_problem", "Trajopt.Props.C96_start_partial", "Trajopt.Props.C96_start_refuted", "Trajopt.Props.C96_trajectory"], "note": "C96_start_refuted, C96_force_refuted: overflow makes start values and limits infinite or NaN. Proved for programs whose numbers are at most 2^250 in magnitude with wheel radii at least 2^-250 (C96_start_partial also needs a control interval on every segment). Assumes correctly rounded sin, cos, atan2 and hypot. Missing: the numbers between these bounds and overflow."},
{"property": "C97", "status": "partial", "theorems": ["Trajopt.Props.C97_apart_partial", "Trajopt.Props.C97_origin_partial", "Trajopt.Props.C97_point_partial", "Trajopt.Props.C97_refuted", "Trajopt.Props.C97_required", "Trajopt.Props.C97_translating_partial"], "note": "C97_refuted: a robot kept 5 away from a point drives through it in one control interval. Proved for moves per interval below twice the clearance min(d, sqrt d), with outlines that do not cross at the first sample (C97_apart_partial), in particular for robots that do not turn with a module gap below that (C97_translating_partial). Missing: longer moves."},
{"property": "C98", "status": "partial", "theorems": ["Trajopt.Props.C98_outside_partial", "Trajopt.Props.C98_refuted", "Trajopt.Props.C98_translating_partial", "Trajopt.Props.C98_turning_partial"], "note": "C98_refuted: a robot 12 long that steps 9 drives over an obstacle of radius 1 with every keep-out satisfied. Proved for moves per interval below twice the clearance (C98_outside_partial), in particular for robots whose module gap g has g(1 + r/rho) below that, r being the reach of the bumpers and rho that of the modules (C98_turning_partial), and for robots that do not turn (C98_translating_partial). Missing: longer moves."},
{"property": "C99", "status": "partial", "theorems": ["Trajopt.Props.C99_bound_partial", "Trajopt.Props.C99_exists", "Trajopt.Props.C99_heading", "Trajopt.Props.C99_position", "Trajopt.Props.C99_refuted", "Trajopt.Props.C99_same_partial", "Trajopt.Props.C99_segment", "Trajopt.Props.C99_velocity"], "note": "C99_refuted: on a path of one interval from standstill, whatever the solution, a robot with its accelerations covers half the way. Proved: such motions exist, velocities and angular velocities are exact (C99_velocity), the exact difference of positions and headings (C99_segment, C99_position, C99_heading), exactness at waypoints passed with the same velocity (C99_same_partial) and a bound by the module gap (C99_bound_partial). Missing: positions at waypoints passed with different velocities."},
{"property": "C100", "status": "partial", "theorems": ["Trajopt.Props.C100_refuted", "Trajopt.Props.C100_sgmt_partial", "Trajopt.Props.C100_temporary", "Trajopt.Props.C100_wpt"], "note": "C100_refuted: for every growth policy there is a history after which SgmtConstraint with the last constraint recorded is undefined. Proved: WptConstraint is always safe (C100_wpt), temporaries behave as in the model without buffers (C100_temporary), and SgmtConstraint is undefined exactly if the reference dangles, otherwise records copies (C100_sgmt_partial). Missing: the undefined calls."},
{"property": "C101", "status": "proved", "theorems": ["Trajopt.Props.C101_call", "Trajopt.Props.C101_ends", "Trajopt.Props.C101_history", "Trajopt.Props.C101_history_throwing"], "note": "Unlike C60 this holds for every error type and every exception; where the code is noexcept and an operation of E throws, the process ends (C101_ends shows that it does)."},
{"property": "C102", "status": "proved", "theorems": ["Trajopt.Props.C102_call", "Trajopt.Props.C102_history", "Trajopt.Props.C102_in_order"], "note": "Complements C81, which covers calls that are in order. The specification includes what the code does where C15, C24 and C26 find it wrong: it describes, it does not approve."},
{"property": "C103", "status": "partial", "theorems": ["Trajopt.Props.C103_cost_partial", "Trajopt.Props.C103_limit_partial", "Trajopt.Props.C103_longest", "Trajopt.Props.C103_refuted", "Trajopt.Props.C103_slower_partial", "Trajopt.Props.C103_time"], "note": "C103_refuted: limited to a quarter of a metre per second, a path that can be driven has no solution. Proved: a trajectory driven k times as slowly is a solution exactly if k times its steps are within the cap (C103_slower_partial), takes k times as long (C103_time), obeys a speed limit it exceeds at most k times (C103_limit_partial), which then costs at most k times the time (C103_cost_partial), and every solution has a longest duration (C103_longest). Missing: steps beyond the cap."},
{"property": "C104", "status": "partial", "theorems": ["Trajopt.Props.C104_complete_partial", "Trajopt.Props.C104_granted", "Trajopt.Props.C104_history", "Trajopt.Props.C104_kept", "Trajopt.Props.C104_refuted", "Trajopt.Props.C104_refuted_segment", "Trajopt.Props.C104_stuck", "Trajopt.Props.C104_unchanged_partial"], "note": "C104_refuted: PoseWpt is refused memory for the count of the new segment, is repeated and succeeds, and every solution of the path stays at the first waypoint. C104_refuted_segment: a segment constraint recorded for a part of the segment. Proved for every history and every pattern of refusals: calls not refused behave as modelled without memory (C104_granted), none is undefined and no more guess lists are missing than there were refusals (C104_history), nothing recorded is lost (C104_kept), missing guesses are never repaired (C104_stuck), calls naming only existing waypoints keep the tables complete (C104_complete_partial) and, if they record at most one constraint, leave the builder unchanged (C104_unchanged_partial). Missing: calls that add waypoints or record several constraints."},
{"property": "C105", "status": "proved", "theorems": ["Trajopt.Props.C105_abs", "Trajopt.Props.C105_add", "Trajopt.Props.C105_atan2", "Trajopt.Props.C105_compare", "Trajopt.Props.C105_div", "Trajopt.Props.C105_format", "Trajopt.Props.C105_hypot", "Trajopt.Props.C105_limits", "Trajopt.Props.C105_literals", "Trajopt.Props.C105_mul", "Trajopt.Props.C105_neg", "Trajopt.Props.C105_rounding", "Trajopt.Props.C105_sign", "Trajopt.Props.C105_sin_cos", "Trajopt.Props.C105_trunc"], "note": ""},
{"property": "C106", "status": "partial", "theorems": ["Trajopt.Props.C106_angle_partial", "Trajopt.Props.C106_fastest", "Trajopt.Props.C106_refuted", "Trajopt.Props.C106_time_partial"], "note": "C106_refuted: half turns take no time. Half turns aside, C106_angle_partial and C106_time_partial bound angle and time for turns up to a quarter turn; C106_fastest gives the best time and angular velocities for equal wheels on a circle. Missing: half turns, for which the claim is false."},
{"property": "C107", "status": "partial", "theorems": ["Trajopt.Props.C107_errors", "Trajopt.Props.C107_order", "Trajopt.Props.C107_read", "Trajopt.Props.C107_refuted", "Trajopt.Props.C107_saved_partial"], "note": "C107_refuted: values with infinities or NaN cannot be loaded. C107_saved_partial: values are loaded as they were exactly if all numbers are finite. C107_read, C107_order: which documents are accepted; C107_errors: what a rejected one is reported for is wrong with it. The text is not modelled: that a finite number is parsed from text as the number that was printed is assumed (serde_json without the feature float_roundtrip may be off in the last digit)."},
{"property": "C108", "status": "partial", "theorems": ["Trajopt.Props.C108_constraint", "Trajopt.Props.C108_fastest_partial", "Trajopt.Props.C108_path_partial", "Trajopt.Props.C108_refuted", "Trajopt.Props.C108_throws"], "note": "C108_refuted: widening a heading tolerance from a half turn to a whole turn makes a path undrivable. C108_path_partial, C108_fastest_partial: true for all other limits and for tolerances up to a half turn. C108_throws: calls throw the same. Missing: tolerances beyond a half turn, for which the claim is false."},
{"property": "C109", "status": "partial", "theorems": ["Trajopt.Props.C109_coast_refuted", "Trajopt.Props.C109_direction_refuted", "Trajopt.Props.C109_norms", "Trajopt.Props.C109_poses_refuted", "Trajopt.Props.C109_refuted", "Trajopt.Props.C109_start_partial", "Trajopt.Props.C109_still_refuted", "Trajopt.Props.C109_stops_partial", "Trajopt.Props.C109_turn_refuted"], "note": "False of the code: C109_refuted (an identity among the constraints of every control interval), C109_poses_refuted (two poses, apart from identities), C109_direction_refuted (direction of travel), C109_still_refuted (standing between two prescribed places, on a whole segment or after a single control interval; also apart from identities and norms), C109_coast_refuted (stops at two waypoints without acceleration in between), C109_turn_refuted (two headings and no turning in between). C109_start_partial: apart from identities the equations of motion and a prescribed start are independent at every feasible assignment when two modules are at different places. C109_stops_partial: so are poses, places and stops at all waypoints, among any limits, when every segment leading to one has two control intervals and takes time, apart also from the norms of later headings, which the other equations imply (C109_norms). Missing: the prescribed accelerations, equations on segments and stops after a single control interval to which these refutations do not apply."},
{"property": "C110", "status": "partial", "theorems": ["Trajopt.Props.C110_exact", "Trajopt.Props.C110_facing_refuted", "Trajopt.Props.C110_refuted", "Trajopt.Props.C110_smooth_partial"], "note": "False of the code: C110_refuted (feasible assignments), C110_facing_refuted (on the point to face, not even differentiable). Decided: C110_exact (at a feasible assignment, twice continuously differentiable exactly if no constraint is at a corner), C110_smooth_partial (away from corners infinitely often)."},
{"property": "C111", "status": "proved", "theorems": ["Trajopt.Props.C111_cost", "Trajopt.Props.C111_depends", "Trajopt.Props.C111_local", "Trajopt.Props.C111_owner", "Trajopt.Props.C111_scope", "Trajopt.Props.C111_used"], "note": "C111_local, C111_owner, C111_scope, C111_cost, C111_used, for any number type; C111_depends: over the reals a constraint's truth depends only on the variables involved."},
{"property": "C112", "status": "proved", "theorems": ["Trajopt.Props.C112_equations", "Trajopt.Props.C112_freedom", "Trajopt.Props.C112_inequalities", "Trajopt.Props.C112_overdetermined", "Trajopt.Props.C112_variables"], "note": ""},
{"property": "C113", "status": "proved", "theorems": ["Trajopt.Props.C113_fastest", "Trajopt.Props.C113_moves", "Trajopt.Props.C113_stretch"], "note": ""},
{"property": "C114", "status": "proved", "theorems": ["Trajopt.Props.C114_equal", "Trajopt.Props.C114_exists", "Trajopt.Props.C114_faster", "Trajopt.Props.C114_helps", "Trajopt.Props.C114_same"], "note": ""},
{"property": "C115", "status": "proved", "theorems": ["Trajopt.Props.C115_calls", "Trajopt.Props.C115_path", "Trajopt.Props.C115_problem", "Trajopt.Props.C115_solves"], "note": ""},
{"property": "C116", "status": "proved", "theorems": ["Trajopt.Props.C116_always", "Trajopt.Props.C116_close", "Trajopt.Props.C116_each", "Trajopt.Props.C116_fastest", "Trajopt.Props.C116_none"], "note": ""},
{"property": "C117", "status": "partial", "theorems": ["Trajopt.Props.C117_between_partial", "Trajopt.Props.C117_forces", "Trajopt.Props.C117_least", "Trajopt.Props.C117_other", "Trajopt.Props.C117_refuted"], "note": "False of the code with keep-outs: C117_refuted (an obstacle can be passed on either side). C117_between_partial: true of paths without keep-outs and with heading tolerances up to a quarter turn. C117_forces, C117_other, C117_least: the rest of the claim holds."},
{"property": "C118", "status": "partial", "theorems": ["Trajopt.Props.C118_close_partial", "Trajopt.Props.C118_fastest_partial", "Trajopt.Props.C118_none_partial", "Trajopt.Props.C118_refuted_length", "Trajopt.Props.C118_refuted_path", "Trajopt.Props.C118_refuted_robot"], "note": "False of the code: C118_refuted_robot (a module out of line by any small amount makes a path undrivable), C118_refuted_path (the longest way drivable), C118_refuted_length (segments of length 0 can never be kept away from). C118_close_partial, C118_fastest_partial, C118_none_partial: the half that is true: nearby paths and robots have only trajectories near those of the path, take not much less time, and what cannot be driven stays so."},
{"property": "C119", "status": "proved", "theorems": ["Trajopt.Props.C119_moves", "Trajopt.Props.C119_slow", "Trajopt.Props.C119_stuck"], "note": ""},
{"property": "C120", "status": "partial", "theorems": ["Trajopt.Props.C120_facing_refuted", "Trajopt.Props.C120_refuted", "Trajopt.Props.C120_smooth_partial", "Trajopt.Props.C120_straight", "Trajopt.Props.C120_values"], "note": "Differentiability fails where the guess is at a corner of a constraint (`C120_facing_refuted`, `C120_refuted`); proved everywhere else, and values everywhere."},
{"property": "C121", "status": "partial", "theorems": ["Trajopt.Props.C121_example_refuted", "Trajopt.Props.C121_motion_partial", "Trajopt.Props.C121_pushed", "Trajopt.Props.C121_refuted", "Trajopt.Props.C121_sides_refuted", "Trajopt.Props.C121_turned"], "note": "False beyond the motion of a robot driving from rest to rest: `C121_refuted` (first sample), `C121_example_refuted` (half turns), `C121_sides_refuted` (sides of an obstacle)."},
{"property": "C122", "status": "partial", "theorems": ["Trajopt.Props.C122_facing_refuted", "Trajopt.Props.C122_inside", "Trajopt.Props.C122_reach", "Trajopt.Props.C122_refuted", "Trajopt.Props.C122_slower_partial", "Trajopt.Props.C122_wheel_refuted"], "note": "False for time steps at their cap (`C122_refuted`), for facing a point exactly (`C122_facing_refuted`) and for wheels without speed or torque (`C122_wheel_refuted`)."},
{"property": "C123", "status": "proved", "theorems": ["Trajopt.Props.C123_again", "Trajopt.Props.C123_frame_refuted", "Trajopt.Props.C123_never_crashes", "Trajopt.Props.C123_only", "Trajopt.Props.C123_others", "Trajopt.Props.C123_where"], "note": "Assumed: `std::bad_alloc` passes through `Solve`, as other exceptions (C86). The constructor of the generator, which touches nothing shared, is not modelled with refused memory."},
{"property": "C124", "status": "partial", "theorems": ["Trajopt.Props.C124_balance_partial", "Trajopt.Props.C124_example", "Trajopt.Props.C124_multipliers_partial", "Trajopt.Props.C124_refuted"], "note": "False in general: with wheels without torque there is a fastest trajectory, but no feasible point at all satisfies the conditions, though everything is smooth (`C124_refuted`): the gradient of `\u2016F\u2016\u00b2 \u2264 0` vanishes where it is active. Also missing: corners, where there are no gradients (C110); equations whose independence C109 does not show; fastest trajectories without room in the sense of C122. Without that room the weaker `C124_balance_partial` holds, in which the multiplier of the time may be zero."},
{"property": "C125", "status": "proved", "theorems": ["Trajopt.Props.C125_example", "Trajopt.Props.C125_mute", "Trajopt.Props.C125_reached", "Trajopt.Props.C125_touch"], "note": ""},
{"property": "C126", "status": "partial", "theorems": ["Trajopt.Props.C126_again_partial", "Trajopt.Props.C126_memory", "Trajopt.Props.C126_problem", "Trajopt.Props.C126_refuted", "Trajopt.Props.C126_start", "Trajopt.Props.C126_values"], "note": "False for the result: C126_refuted (the second call starts where the first one stopped, C126_values, C126_start, and may succeed where that failed). Proved: the problem is the same (C126_problem, with refused memory C126_memory); solvers that stay where they ended give the same result again (C126_again_partial). Assumed: what Sleipnir keeps between two calls of Solve is the values of the variables."},
{"property": "C127", "status": "proved", "theorems": ["Trajopt.Props.C127_calls", "Trajopt.Props.C127_edits", "Trajopt.Props.C127_memory", "Trajopt.Props.C127_path", "Trajopt.Props.C127_problem"], "note": ""},
{"property": "C128", "status": "proved", "theorems": ["Trajopt.Props.C128_calls", "Trajopt.Props.C128_problem", "Trajopt.Props.C128_solves", "Trajopt.Props.C128_turn"], "note": ""},
{"property": "C129", "status": "partial", "theorems": ["Trajopt.Props.C129_poses_partial", "Trajopt.Props.C129_refuted"], "note": "False for time steps and forces: C129_refuted (start values are 5 s per segment and no forces, whatever the guess). Proved for positions and headings: C129_poses_partial."}
]}
