"""Status and note per property, used by manifest.py."""
NOTES = {
    "C02": ("proved", "Real arithmetic; the length is proved for any scalar arithmetic."),
    "C03": ("proved", "Real arithmetic."),
    "C04": ("proved", "Any scalar arithmetic; sample count below 2^64."),
    "C05": ("proved", "Sample 0 for any scalar arithmetic, the others in real arithmetic; headings hit if the guess heading is a unit vector."),
    "C06": ("proved", "Real arithmetic."),
    "C07": ("proved", "Real arithmetic."),
    "C19": ("partial", "False as stated: C19_refuted (driving backwards satisfies the constraint). C19_partial: the velocity is a multiple, of either sign, of the direction."),
    "C20": ("partial", "False as stated: C20_refuted (opposite heading satisfies the constraint). C20_partial: position fixed, heading fixed up to a half turn."),
    "C24": ("partial", "False as stated, in both directions: C24_refuted_too_strict, C24_refuted_too_weak. C24_partial: exact meaning, squared distance at least d on non-degenerate segments."),
    "C59": ("partial", "False as stated: C59_refuted. C59_partial says when Angle() is a unit rotation."),
    "C26": ("partial", "False as stated: C26_closing_throws, C26_refuted_closing (closing obstacle edge indexed with the bumper's corner count), C26_early_return, C26_refuted_early_return. C26_partial: exact for equal corner counts or obstacles with at most two corners. Any scalar arithmetic."),
    "C28": ("partial", "False as stated: C28_refuted (crossing bars). C28_partial, C28_generated_partial: true if no edges cross."),
    "C33": ("partial", "False as stated: C33_refuted (without a pose constraint a heading may have norm 2) and C33_refuted_speed (the robot may then be faster than its wheels can roll). C33_partial: all headings are unit vectors if one is; C33_pose_partial: so with a pose equality anywhere."),
    "C34": ("partial", "False as stated: C34_refuted (heading flips at zero angular velocity). C34_partial: holds up to a half turn."),
    "C39": ("partial", "False as stated: C39_refuted (the bound on dt uses only neighbouring modules). C39_partial: holds if no smaller gap arises; C39_rectangle_partial: holds for rectangular robots."),
    "C47": ("proved", "Every step of every schedule; C47_never_crashes: for generators that were constructed from a ready builder."),
    "C49": ("partial", "False as stated: C49_refuted (iterations within 1/60 s of the last round call nothing). C49_partial: iterations at least 1/60 s after the last round call all callbacks."),
    "C50": ("partial", "False as stated: C50_rate_refuted (concurrent generations race on lastFrameTime), C50_solution_refuted (a callback may change the solution the next one sees). Order and handle hold for all schedules in which no callback throws (C50_order; otherwise C86_calls), so does currency of the solution (C50_current); the rate for generations that do not overlap (C50_rate_partial, C50_rate_sequential_partial), the solution for callbacks that do not change it (C50_solution_partial)."),
    "C51": ("proved", "C51_generate needs fewer than 2^64 samples. That an exception leaving a wrapper aborts and that Result functions turn it into Err is cxx's behaviour, assumed."),
    "C53": ("partial", "False as stated: C53_refuted (a second call adds a second rectangle). C53_partial: one rectangle per call, in order; C53_once_partial: exact if called once."),
    "C62": ("partial", "False as stated: C62_refuted (a triangle aborts the process). C62_partial: aborts exactly for empty polygons and triangles."),
    "C63": ("partial", "False as stated: C63_refuted (generate without waypoints). C63_calls_partial: no builder call is undefined; C63_generate_partial: generate is undefined exactly without waypoints."),
    "C60": ("partial", "Without exceptions from T and E every program over expected objects refines the sum type; the combinators, observers and comparisons are those of the sum type. With exceptions, for types that move without throwing, all calls but throwing emplace and copying operator=(U&&) keep every object holding one alternative. The code violates the rest: C60_assign_refuted (undefined behaviour), C60_emplace_refuted (undefined behaviour on destruction), C60_emplace_list_refuted (undefined behaviour), C60_copy_refuted (process ends instead of an exception), C60_convert_refuted (leak), C60_unequal_void_refuted (!= of expected<void, E> is inverted)."),
    "C70": ("partial", "False as stated: C70_refuted (squared distances are compared, so a keep-out distance of 10 mm has no effect at all within the tolerance, C70_no_effect). C70_partial: fixed positions are met to the tolerance per coordinate, point keep-out distances d to tolerance/d."),
    "C71": ("proved", "Requires that the solver's values satisfy the generated constraints, fewer than 2^64 samples and nonzero wheel radii. Headings only up to half turns and circle distances only up to the square root, because of the defects in C20, C24 and C34."),
    "C73": ("partial", "False as stated: C73_refuted_last (Linspace(0, 1, 49) ends at 1 - 2^-53), C73_refuted_range (Linspace(0, 7, 25) ends beyond 7). C73_entry_partial, C73_last_partial, C73_angle_partial, C73_angle_last_partial: error bounds; C73_monotone, C73_constant hold exactly. Overflow, NaN and signed zeros are not modelled."),
    "C74": ("proved", "Overflow and NaN are not modelled."),
    "C75": ("partial", "False for velocity directions: C75_refuted_direction (with IEEE doubles and correctly rounded cosine and sine, the constraint for pi/4 only allows standing still), C75_direction_stop (so for every angle whose rounded cosine and sine have squares adding up to less than 1). C75_guaranteed_partial, C75_enough, C75_pose_feasible: the rest. Rounding inside Sleipnir is not modelled."),
    "C76": ("proved", "Expressions are read exactly; rounding inside Sleipnir, overflow and NaN are not modelled."),
  "C80": ("partial", "C80_units_partial and C80_fastest_partial hold for every path that keeps no distance from lines. C80_refuted: distances from lines are compared squared with unsquared, so that changing the unit of length turns a drivable path into one that is not."),
  "C82": ("partial", "C82_cpp_partial: all seven C++ examples work. C82_rust_refuted: the Rust example is infeasible, its bumpers lying across the obstacle at the first pose. C82_test_undefined, C82_test_refuted: the skipped test sets no drivetrain (undefined behaviour) and would be infeasible with one. C82_obstacle_ignored: example 5's obstacle constrains nothing. C82_guess_ignored, C82_both_sides, C82_starts_between: example 7's guess does not choose a side."),
  "C83": ("partial", "False as stated: C83_refuted (too few interval counts: the remaining waypoints are ignored, C83_ignored), C83_stacked (a count of 0 puts two waypoints on one sample). C83_visited_partial, C83_default_partial, C83_counts_partial: exactly when every waypoint is visited."),
  "C84": ("partial", "False as stated: C84_refuted (first example program), C84_violated (whenever two waypoints are guessed at different places, apart from coincidences of the counts). C84_scale: by which factor; C84_exact_partial, C84_single: when they do."),
  "C85": ("proved", "The exact time requires that the wheels can roll at the greatest speed needed and that the step cap allows the time step; then torque alone limits the time."),
  "C86": ("proved", "Assumed: an exception passes through `Solve`."),
  "C87": ("partial", "As stated it is false (C87_refuted). Proved for programs that neither copy nor move generators (the examples, tests and the Rust interface do not); copies report what their original reports while it exists unchanged; and for every program exactly what each generator reports is given by its history."),
  "C90": ("partial", "False as stated: C90_refuted (motors twice as fast make a path infeasible, because the cap on time steps shrinks with wheel speed). C90_stronger_partial, C90_fastest_partial: holds for more torque and proportionally less mass and moment of inertia, wheel speeds being equal."),
  "C91": ("partial", "False as stated: C91_refuted (axes turned by 45\u00b0 shrink the cap on time steps and make a path infeasible). C91_quarter_partial: true for multiples of 90\u00b0. C91_axes_partial: for any angle true wherever the step cap is the same; missing only the step cap."),
  "C92": ("partial", "False as stated: C92_refuted (two Generate calls on two threads race for the static lastFrameTime, even one after the other). C92_only_partial: these are the only races, so the cancellation flag and the static's initialisation are safe; C92_ordered_partial, C92_one_thread_partial: no races if the caller orders Generate calls on different threads or uses one thread."),
  "C93": ("partial", "C93_refuted: a segment with zero control intervals starts with an infinite time step and a NaN objective. C93_start_partial, C93_start_iff: otherwise all start values are the finite ones of real arithmetic. C93_calls, C93_program, C93_guess, C93_problem: the rest of the claim holds."),
  "C94": ("partial", "C94_refuted_slower: from standstill to standstill, an odd number of control intervals is slower than the even number before it. C94_refuted_drivable: a path drivable with counts [1, 1] is not with [1, 2]. C94_time: the time for every number from two on; C94_close_partial: no number N from two on is worse than any other by more than the fraction 1/N. C94_wait_partial: if the robot stands anywhere in the segment, the path stays drivable with any larger number. Missing: how the fastest time varies for other paths."),
  "C95": ("partial", "C95_refuted: a path that can be driven from standstill to standstill without turning cannot be driven backwards. C95_calm_partial: true if the robot stands at every waypoint, on each segment drives without turning or turns without driving, makes no half turn in no time (C106), and acceleration limits at waypoints hold along the segments that follow; C95_straight_partial is the case without turning. Turning while driving it is false even so: C95_refuted_turning."),
  "C96": ("partial", "C96_start_refuted, C96_force_refuted: overflow makes start values and limits infinite or NaN. Proved for programs whose numbers are at most 2^250 in magnitude with wheel radii at least 2^-250 (C96_start_partial also needs a control interval on every segment). Assumes correctly rounded sin, cos, atan2 and hypot. Missing: the numbers between these bounds and overflow."),
  "C97": ("partial", "C97_refuted: a robot kept 5 away from a point drives through it in one control interval. Proved for moves per interval below twice the clearance min(d, sqrt d), with outlines that do not cross at the first sample (C97_apart_partial), in particular for robots that do not turn with a module gap below that (C97_translating_partial). Missing: longer moves."),
  "C98": ("partial", "C98_refuted: a robot 12 long that steps 9 drives over an obstacle of radius 1 with every keep-out satisfied. Proved for moves per interval below twice the clearance (C98_outside_partial), in particular for robots whose module gap g has g(1 + r/rho) below that, r being the reach of the bumpers and rho that of the modules (C98_turning_partial), and for robots that do not turn (C98_translating_partial). Missing: longer moves."),
  "C99": ("partial", "C99_refuted: on a path of one interval from standstill, whatever the solution, a robot with its accelerations covers half the way. Proved: such motions exist, velocities and angular velocities are exact (C99_velocity), the exact difference of positions and headings (C99_segment, C99_position, C99_heading), exactness at waypoints passed with the same velocity (C99_same_partial) and a bound by the module gap (C99_bound_partial). Missing: positions at waypoints passed with different velocities."),
  "C100": ("partial", "C100_refuted: for every growth policy there is a history after which SgmtConstraint with the last constraint recorded is undefined. Proved: WptConstraint is always safe (C100_wpt), temporaries behave as in the model without buffers (C100_temporary), and SgmtConstraint is undefined exactly if the reference dangles, otherwise records copies (C100_sgmt_partial). Missing: the undefined calls."),
  "C101": ("proved", "Unlike C60 this holds for every error type and every exception; where the code is noexcept and an operation of E throws, the process ends (C101_ends shows that it does)."),
  "C102": ("proved", "Complements C81, which covers calls that are in order. The specification includes what the code does where C15, C24 and C26 find it wrong: it describes, it does not approve."),
  "C103": ("partial", "C103_refuted: limited to a quarter of a metre per second, a path that can be driven has no solution. Proved: a trajectory driven k times as slowly is a solution exactly if k times its steps are within the cap (C103_slower_partial), takes k times as long (C103_time), obeys a speed limit it exceeds at most k times (C103_limit_partial), which then costs at most k times the time (C103_cost_partial), and every solution has a longest duration (C103_longest). Missing: steps beyond the cap."),
  "C104": ("partial", "C104_refuted: PoseWpt is refused memory for the count of the new segment, is repeated and succeeds, and every solution of the path stays at the first waypoint. C104_refuted_segment: a segment constraint recorded for a part of the segment. Proved for every history and every pattern of refusals: calls not refused behave as modelled without memory (C104_granted), none is undefined and no more guess lists are missing than there were refusals (C104_history), nothing recorded is lost (C104_kept), missing guesses are never repaired (C104_stuck), calls naming only existing waypoints keep the tables complete (C104_complete_partial) and, if they record at most one constraint, leave the builder unchanged (C104_unchanged_partial). Missing: calls that add waypoints or record several constraints."),
  "C106": ("partial", "C106_refuted: half turns take no time. Half turns aside, C106_angle_partial and C106_time_partial bound angle and time for turns up to a quarter turn; C106_fastest gives the best time and angular velocities for equal wheels on a circle. Missing: half turns, for which the claim is false."),
  "C107": ("partial", "C107_refuted: values with infinities or NaN cannot be loaded. C107_saved_partial: values are loaded as they were exactly if all numbers are finite. C107_read, C107_order: which documents are accepted; C107_errors: what a rejected one is reported for is wrong with it. The text is not modelled: that a finite number is parsed from text as the number that was printed is assumed (serde_json without the feature float_roundtrip may be off in the last digit)."),
  "C108": ("partial", "C108_refuted: widening a heading tolerance from a half turn to a whole turn makes a path undrivable. C108_path_partial, C108_fastest_partial: true for all other limits and for tolerances up to a half turn. C108_throws: calls throw the same. Missing: tolerances beyond a half turn, for which the claim is false."),
  "C109": ("partial", "False of the code: C109_refuted (an identity among the constraints of every control interval), C109_poses_refuted (two poses, apart from identities), C109_direction_refuted (direction of travel), C109_still_refuted (standing between two prescribed places, on a whole segment or after a single control interval; also apart from identities and norms), C109_coast_refuted (stops at two waypoints without acceleration in between), C109_turn_refuted (two headings and no turning in between). C109_start_partial: apart from identities the equations of motion and a prescribed start are independent at every feasible assignment when two modules are at different places. C109_stops_partial: so are poses, places and stops at all waypoints, among any limits, when every segment leading to one has two control intervals and takes time, apart also from the norms of later headings, which the other equations imply (C109_norms). Missing: the prescribed accelerations, equations on segments and stops after a single control interval to which these refutations do not apply."),
  "C110": ("partial", "False of the code: C110_refuted (feasible assignments), C110_facing_refuted (on the point to face, not even differentiable). Decided: C110_exact (at a feasible assignment, twice continuously differentiable exactly if no constraint is at a corner), C110_smooth_partial (away from corners infinitely often)."),
  "C111": ("proved", "C111_local, C111_owner, C111_scope, C111_cost, C111_used, for any number type; C111_depends: over the reals a constraint's truth depends only on the variables involved."),
  "C112": ("proved", ""),
  "C113": ("proved", ""),
  "C114": ("proved", ""),
  "C115": ("proved", ""),
  "C116": ("proved", ""),
  "C117": ("partial", "False of the code with keep-outs: C117_refuted (an obstacle can be passed on either side). C117_between_partial: true of paths without keep-outs and with heading tolerances up to a quarter turn. C117_forces, C117_other, C117_least: the rest of the claim holds."),
  "C118": ("partial", "False of the code: C118_refuted_robot (a module out of line by any small amount makes a path undrivable), C118_refuted_path (the longest way drivable), C118_refuted_length (segments of length 0 can never be kept away from). C118_close_partial, C118_fastest_partial, C118_none_partial: the half that is true: nearby paths and robots have only trajectories near those of the path, take not much less time, and what cannot be driven stays so."),
  "C120": ("partial", "Differentiability fails where the guess is at a corner of a constraint (`C120_facing_refuted`, `C120_refuted`); proved everywhere else, and values everywhere."),
  "C121": ("partial", "False beyond the motion of a robot driving from rest to rest: `C121_refuted` (first sample), `C121_example_refuted` (half turns), `C121_sides_refuted` (sides of an obstacle)."),
  "C122": ("partial", "False for time steps at their cap (`C122_refuted`), for facing a point exactly (`C122_facing_refuted`) and for wheels without speed or torque (`C122_wheel_refuted`)."),
  "C123": ("proved", "Assumed: `std::bad_alloc` passes through `Solve`, as other exceptions (C86). The constructor of the generator, which touches nothing shared, is not modelled with refused memory."),
  "C124": ("partial", "False in general: with wheels without torque there is a fastest trajectory, but no feasible point at all satisfies the conditions, though everything is smooth (`C124_refuted`): the gradient of `‖F‖² ≤ 0` vanishes where it is active. Also missing: corners, where there are no gradients (C110); equations whose independence C109 does not show; fastest trajectories without room in the sense of C122. Without that room the weaker `C124_balance_partial` holds, in which the multiplier of the time may be zero."),
  "C126": ("partial", "False for the result: C126_refuted (the second call starts where the first one stopped, C126_values, C126_start, and may succeed where that failed). Proved: the problem is the same (C126_problem, with refused memory C126_memory); solvers that stay where they ended give the same result again (C126_again_partial). Assumed: what Sleipnir keeps between two calls of Solve is the values of the variables."),
  "C129": ("partial", "False for time steps and forces: C129_refuted (start values are 5 s per segment and no forces, whatever the guess). Proved for positions and headings: C129_poses_partial."),
}
