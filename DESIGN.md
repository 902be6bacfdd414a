# TrajoptLib in Lean 4: design

## What is modelled

All of TrajoptLib's own logic: `TrajoptUtil`, `GenerateLinearInitialGuess`, the geometry
classes, the ten constraint types, `SwervePathBuilder`, `SwerveTrajectoryGenerator`
(constructor, `Generate`, `ApplyInitialGuess`, `ConstructSwerveSolution`), `HolonomicTrajectory`,
cancellation and progress callbacks, the Rust FFI layer, and the vendored `expected`.

Modules under `lean/Verif`:

| part | modules | models |
|---|---|---|
| machine | `Model/Base` | faults (`out_of_range`, assert failure, undefined behaviour), `vector::at`, `operator[]`, `size_t`/`int64_t`/`int` conversions |
| scalars | `Model/Scalar`, `Model/Real`, `Model/Double`, `Model/Wide` | the operations the code performs on `double` and on `sleipnir::Variable`, as a class *without laws*; the instances for the reals and for rounded arithmetic (IEEE binary64), and for infinities and NaN |
| solver interface | `Model/Problem` | expressions, constraints, `OptimizationProblem` as data |
| geometry | `Model/Geometry` | `Rotation2<T>`, `Translation2<T>`, `Pose2<T>` and their `==` |
| util | `Model/Util`, `Model/InitialGuess` | `GetIndex`, `Linspace`, `AngleLinspace`, `GenerateLinearInitialGuess` |
| constraints | `Model/Constraint` | the ten constructors and `Apply` functions, `LinePointDistance` |
| builder | `Model/Builder` | every `SwervePathBuilder` method as `Builder → Builder × Option Fault`; the state after a throw is kept |
| path edits | `Model/Edit` | histories in which the caller also changes the path through `GetPath()`, also single members of the drivetrain |
| generator | `Model/Generator` | constructor, `ApplyInitialGuess`, `ConstructSwerveSolution` |
| run time | `Model/Runtime` | `Generate`, cancellation flag, callbacks, as a transition system over interleaved events |
| shared memory | `Model/Access` | which shared variables each step accesses, and how |
| objects | `Model/Objects` | construction, copying, moving and destruction of generators, as far as progress callbacks depend on it |
| memory | `Model/Exhaust` | the builder when requests for memory are refused (`std::bad_alloc`) |
| memory in `Generate` | `Model/Refuse` | a process in which allocations of `Generate` are refused |
| references | `Model/Alias` | `WptConstraint` and `SgmtConstraint` called with references into the path: vectors with buffers |
| trajectory | `Model/Trajectory` | `HolonomicTrajectory(const SwerveSolution&)` |
| FFI | `Model/FFI` | `RustFFI.cpp`, `lib.rs` |
| saving | `Model/Serde` | the `Serialize` and `Deserialize` instances that `lib.rs` derives, on JSON documents |
| examples | `Model/Examples` | `examples/Swerve/src/Main.cpp`, `examples/swerve.rs`, `test/src/ObstacleTest.cpp` (the calls that build paths) |
| expected | `Model/Expected` | `expected<T,E>` with object lifetimes and exceptions |
| | `Model/ExpectedVoid` | the same for `expected<void,E>` |
| specification | `Spec/*` | what the theorems are stated against: plain mathematics, no model helpers |
| theorems | `Props/*` | one file per group of properties; helper lemmas are in `Lemmas/*` |
| tests | `Tests` | the repository's unit tests and example programs run on the model (no proofs) |

### Scalars

`double` data is a type `D` with operations but no laws (`Dbl D`).  Theorems of the kind "any
scalar arithmetic" are proved for every `D`, hence also for IEEE doubles.  Theorems of the kind
"real arithmetic" are proved for `D = ℝ`: rounding, overflow, infinities and signed zero are
not modelled there.  Exceptions, handled explicitly: the `INFINITY` that `minWidth` starts from
is a separate value (`Con.leInf`), and division between autodiff variables is undefined at a zero
denominator (`Expr.Defined`); a constraint with an undefined side does not hold.  Divisions of
doubles by zero that can occur (`5.0 / N_sgmt` with `N_sgmt = 0`, `wheelMaxTorque / wheelRadius` with
radius 0) are excluded by an explicit hypothesis in the theorems that depend on them.

C88 is about `D = Wide` (`Model/Wide.lean`): real numbers, two infinities and NaN with the operations of
IEEE 754, without rounding, overflow and signed zeros.  Here Sleipnir is taken to store `a >= b` as `a - b`, to
evaluate expressions operation by operation (without simplifying them first), and to call the constraint satisfied when the value is
at least zero, which NaN is not.

C96 is about `D = Ieee` (`Model/Ieee.lean`): IEEE 754 binary64 with rounding to nearest even, gradual underflow,
overflow to infinity, signed zeros and NaN.  `std::sin`, `std::cos`, `std::atan2` and `std::hypot` are taken to be
correctly rounded.  `NaN` payloads, traps and rounding modes other than the default are not modelled.

C73–C76 are about `D = Doubles A` for any rounded arithmetic `A : Arith` (`Model/Double.lean`): each operation
is the exact one followed by a monotone, odd rounding with relative error `u` and absolute error `η`.
IEEE binary64 with round-to-nearest-even is constructed (`rnd64`, `binary64`) and shown to be an `Arith`; it
is what the refutations use.  Overflow, infinities, NaNs and signed zeros are not modelled there; `binary64` takes sine and cosine
to be correctly rounded, which C does not promise.

### Outcomes

`out_of_range`, failed `assert` (only when the model's `asserts` flag is on; the default CMake build
type and Rust's release profile compile asserts out) and undefined behaviour are distinct faults
(`Fault`).  Theorems about call histories quantify over `asserts`.

### Feasibility

`Problem.Feasible σ`: the assignment `σ` satisfies all constraints exactly.  `Problem.FeasibleWithin ε σ`:
no constraint is violated by more than `ε` (unscaled, each constraint for itself); that is how the
solver's `tolerance = 1e-4` is read.  `decode` turns an assignment into a trajectory (`Traj`) in terms of complex
numbers; `Obeys` (`ObeysWithin`) says what the trajectory then satisfies, with no reference to the
model, and C29 (C69) is the equivalence.  All physical properties are consequences of `Obeys`.

### Concurrency

One step is one access to shared state or one callback; a schedule is any list of events, so that
every interleaving of any number of concurrent `Generate` calls is covered.  `lastFrameTime` is a plain
function-local static; concurrent access is a data race, hence undefined behaviour in C++.
The model gives it interleaving semantics and shows that even then the rate limit fails
(`C50_rate_refuted`).  `Model/Access` and `Spec/Race` say which schedules contain such a race (C92).  The same race is reachable from safe Rust by generating in two threads.

## Trusted base

* Lean's kernel; axioms `propext`, `Classical.choice`, `Quot.sound` only (per theorem: last section).
* The reading of the code embodied in `Model/*` (each definition cites the lines it models).
* Sleipnir is not in the repository.  Assumed: `DecisionVariable()` returns a fresh variable with
  value 0, `SubjectTo` adds the constraints it is given, arithmetic on `Variable` means
  arithmetic on values, `sign(x)` is -1, 0, 1, `==` between matrices is entrywise, the callback
  is called once per iteration and a `true` result makes `Solve` return `kCallbackRequestedStop`
  (code 2), an exception thrown by the callback passes through `Solve`.  Everything else about `Solve` — values, exit code, number of iterations — is arbitrary:
  no theorem says that the solver finds a solution or an optimal one.
* cxx: a C++ exception leaving a function that does not return `Result` ends the process; one derived
  from `std::exception` leaving a function that does becomes `Err`.

### Not modelled

* User-defined constraint types (the C++ interface accepts only the ten in the `Constraint` variant).
* Memory exhaustion in the generator's constructor and the Rust wrapper (builder: `Model/Exhaust`, C104; `Generate`: `Model/Refuse`, C123); panics in Rust callbacks (cxx ends the process).
* `DifferentialDrivetrain`, `DifferentialSolution`: plain data that no code uses.
* JSON as text (documents: `Model/Serde`, C107): digits of numbers, escapes, limits of nesting.
* `diagnostics` only affects Sleipnir's output.
* Build files, `Cargo` features, documentation.
* Of `expected`: trivially copyable specialisations (same code written by the compiler), builds without
  exceptions, `constexpr`.

## Findings

Places where the code does not do what its documentation, comments or names say.  Each is a theorem.

| where | what | theorem |
|---|---|---|
| `LinearVelocityDirectionConstraint` | also satisfied by driving backwards | `C19_refuted` |
| `PoseEqualityConstraint`, heading kinematics | also satisfied by a heading off by half a turn, at any sample | `C20_refuted`, `C34_refuted` |
| `LinePointConstraint`, `PointLineConstraint` | compare the squared distance, squared once more, with `minDistance²`: too strict beyond 1 m, too weak below | `C24_refuted_*` |
| the same | hence the outcome depends on the unit of length | `C80_refuted` |
| the same | degenerate segments can never be satisfied | `C25_degenerate` |
| `SwervePathBuilder::WptObstacle`, `SgmtObstacle` | the closing edge of the obstacle is indexed with the bumper's corner count: throws, or uses a wrong edge | `C26_refuted_closing`, `C26_closing_throws` |
| the same | return after the first point bumper, dropping the others | `C26_refuted_early_return` |
| obstacle constraints | corners only: outlines may cross | `C28_refuted` |
| generator | without a pose constraint headings need not be unit vectors, and the robot may drive faster than its wheels can roll | `C33_refuted`, `C33_refuted_speed` |
| `minWidth` | only neighbouring modules in list order are looked at | `C39_refuted` |
| objective | `int` conversion of interval counts: 2^31 intervals count negatively | `C42_overflow` |
| progress callbacks | iterations within 1/60 s call nothing; concurrent generations exceed the rate | `C49_refuted`, `C50_rate_refuted` |
| progress callbacks | receive a mutable reference: one callback's changes are seen by the next | `C50_solution_refuted` |
| `cancel_all` | is lost if another `Generate` starts before the flag is read | `C48_lost_cancel` |
| `Translation2::Angle` | not normalised, hence not a rotation | `C59_refuted` |
| `SgmtInitialGuessPoints(SIZE_MAX, …)` | wraps around to waypoint 0 | `C08_first_exception` |
| failed `SgmtConstraint` | leaves the constraint on a part of the range | `C15_sgmt_partial_effect` |
| Rust `set_bumpers` | adds instead of setting | `C53_refuted` |
| Rust `sgmt_polygon_obstacle` | a triangle ends the process (after `set_bumpers`) | `C62_refuted` |
| Rust `generate` | undefined behaviour without waypoints, from safe code | `C63_refuted` |
| `expected` | assignment: undefined behaviour; `emplace`: dead value destroyed; copies end the process; leak; `!=` inverted for void | `C60_*_refuted` |
| `LinearVelocityDirectionConstraint` | requires `dot² = norm²` with a rounded direction vector: at 45° (and whenever the rounded vector is shorter than 1) only standing still satisfies it exactly; the solver's tolerance hides this | `C75_refuted_direction` |
| `Linspace` | in doubles, may stop short of or overshoot the end value by one unit in the last place | `C73_refuted_*` |
| `GetPath()` | clearing the waypoints keeps their interval counts: after rebuilding, the generator throws | `C77_rebuilt` |
| generator, robot without modules | nothing bounds the speed: the minimum-time problem has an infimum but no minimum | `C78_no_modules` |
| tolerance comment | a keep-out distance of 10 mm has no effect within the tolerance | `C70_refuted` |
| `examples/swerve.rs:42-47` | the Rust example has no solution: at its first pose the 1.3 m bumpers lie across the obstacle at (0.5, 0.1) | `C82_rust_refuted` |
| `examples/Swerve/src/Main.cpp`, example 5 | no bumpers are added before the obstacle is, so that the obstacle constrains nothing | `C82_obstacle_ignored` |
| `examples/Swerve/src/Main.cpp`, example 7 | "Tell optimizer to go in +y direction rather than -y": the guess at the first waypoint is the one already there, every start value lies on the x axis, and the feasible trajectories are symmetric about it: nothing prefers +y | `C82_guess_ignored`, `C82_both_sides`, `C82_starts_between` |
| `test/src/ObstacleTest.cpp:21-38` | the skipped test never sets the drivetrain it defines, so that the generator reads an uninitialised mass; with any drivetrain set the path has no solution, a bumper corner being 0.92 m from an obstacle to be kept 1.1 m away from | `C82_test_undefined`, `C82_test_refuted` |
| generator | takes the number of waypoints from the interval counts: with too few counts the last waypoints are silently ignored | `C83_refuted`, `C83_ignored` |
| segments with 0 control intervals | both ends are the same sample, so that different positions there have no solution | `C83_stacked` |
| start values | velocities are differences over the time step of the guess (`5 (K+1) / S`), time steps start at `5 / N`: the start values miss the equations of motion, with one segment by a factor of about two | `C84_refuted`, `C84_scale` |
| `Generate` | does not turn exceptions of callbacks into its error result: they leave it, and the rest of the round is skipped | `C86_exception`, `C86_calls` |
| `SwerveTrajectoryGenerator` | copyable and movable although its callback captures `this`: after a move nothing is reported, and once the original is gone progress is undefined behaviour | `C87_refuted` |
| `SwerveTrajectoryGenerator.cpp:127-129` | a wheel whose maximum speed is infinite (no limit) makes every path unsatisfiable: the step cap compares infinity or NaN with the gap | `C88_unlimited_speed` |
| `SwerveTrajectoryGenerator.cpp:211-217` | a wheel radius of zero turns the force limit into infinity | `C88_zero_radius` |
| step cap | faster motors shorten the largest allowed time step: a path that a robot can drive becomes infeasible when its motors turn twice as fast | `C90_refuted` |
| step cap | the largest allowed time step depends on which way the robot's axes are drawn: a path that a square robot can drive becomes infeasible when the same robot is described in axes turned by 45° | `C91_refuted` |
| `lastFrameTime` | a static variable shared by all generators and not atomic: two threads calling `Generate` on different generators race for it, even if their calls do not overlap in time, unless the caller synchronises them | `C92_refuted` |
| `SwerveTrajectoryGenerator.cpp:142` | `5.0 / N_sgmt` for a segment without control intervals is infinite, and the objective (infinity times 0) starts at NaN | `C93_refuted` |
| `SwerveTrajectoryGenerator.cpp:134-185` | one more control interval makes the fastest trajectory slower whenever the number was even, and can make a path undrivable: obstacles are only kept out of at samples | `C94_refuted_slower`, `C94_refuted_drivable` |
| `SwerveTrajectoryGenerator.cpp:146-172` | the discretisation is not symmetric in time: the last control interval before a stop covers no distance, so a path drivable one way may not be drivable the other way | `C95_refuted` |
| `SwerveTrajectoryGenerator.cpp:146-172,201-212` | wheel speeds are checked with the heading at the end of a control interval only, so a robot that turns while driving may be able to drive there but not back, though it stands at every waypoint | `C95_refuted_turning` |
| `TrajoptUtil.hpp:36` | `endValue - startValue` overflows for finite positions further apart than the largest double; the guess is then infinite and solving starts from velocities that are NaN | `C96_linspace_refuted`, `C96_start_refuted` |
| `SwerveTrajectoryGenerator.cpp:213` | torque divided by a tiny wheel radius overflows; the force limit is then infinite | `C96_force_refuted` |
| `SwerveTrajectoryGenerator.cpp:108-131` | The step cap comes from the module positions, not from the obstacles: a point the robot is kept away from by half the cap or less can be driven through between two samples | `C97_refuted` |
| `SwervePathBuilder.cpp:119-183` | Keep-outs constrain outlines only: an obstacle inside the bumpers satisfies them all, so a robot can drive over an obstacle if its step cap lets it step over its own bumper's clearance | `C98_refuted` |
| `SwerveTrajectoryGenerator.cpp:164-172` | Positions are integrated with the velocity at the end of each interval, so a robot that follows the sampled accelerations (feed-forward) ends up short of a waypoint it passes faster than it started, by half a control interval of the difference | `C99_refuted` |
| `SwervePathBuilder.hpp:137-147` | `SgmtConstraint` takes its constraint by reference and reads it after appending to the vectors of the path; called with a constraint obtained from `GetPath()` it reads a dangling reference if that vector is full and within the segment | `C100_refuted` |
| `SwerveTrajectoryGenerator.cpp:108-131` | The cap on the time step (module gap over wheel speed) is also a longest duration of the path: a speed limit can make a drivable path infeasible, with no hint that more control intervals are needed | `C103_refuted`, `C103_longest` |
| `SwervePathBuilder.cpp:205-211` | `NewWpts` appends to three vectors one after the other; if memory runs out in between, they disagree for good: the repeated call succeeds but the segment has no count, and the last waypoint is ignored (or: the last waypoint has no guess and `PoseWpt` always throws) | `C104_refuted`, `C104_stuck` |
| `SwervePathBuilder.hpp:137-147` | `SgmtConstraint` that runs out of memory has recorded its constraint for a part of the segment | `C104_refuted_segment` |
| `SwerveTrajectoryGenerator.cpp:146-172` | a half turn on the spot, standing at both ends, is admitted with duration zero: the heading may flip by half a turn between two samples | `C106_refuted` |
| `lib.rs:26-42` | a trajectory with an infinity or NaN is saved with `null` in its place and cannot be loaded again | `C107_refuted` |
| `PointAtConstraint.hpp` | only the cosine of the heading tolerance is used: beyond half a turn a wider tolerance is a tighter one, a whole turn demands the exact heading | `C108_refuted` |
| `Rotation2.hpp:166-169`, `SwerveTrajectoryGenerator.cpp:169` | every control interval adds the equality `cos²(ω dt) + sin²(ω dt) = 1`, always true, with zero gradient | `C109_refuted` |
| `PoseEqualityConstraint.hpp:44` | with poses at two waypoints the unit length of the later heading follows from the other equalities: the gradients are linearly dependent at every feasible assignment | `C109_poses_refuted` |
| `LinearVelocityDirectionConstraint.hpp:36-49` | the constraint is the vanishing of a square: zero gradient wherever it is satisfied | `C109_direction_refuted` |
| `LinearVelocityMaxMagnitudeConstraint.hpp`, `SwerveTrajectoryGenerator.cpp:168` | where the robot has to stand between two prescribed places the equations of motion repeat that the places agree: the gradients are linearly dependent at every feasible assignment | `C109_still_refuted` |
| `LinearAccelerationMaxMagnitudeConstraint.hpp`, `SwerveTrajectoryGenerator.cpp:170` | the same for velocities, between two stops without acceleration in between | `C109_coast_refuted` |
| `AngularVelocityMaxMagnitudeConstraint.hpp`, `SwerveTrajectoryGenerator.cpp:169` | the same for headings, between two poses without turning in between | `C109_turn_refuted` |
| `PointAtConstraint.hpp:47-64` | the distance to the point is not differentiable on the point itself, where the constraint holds | `C110_facing_refuted`, `C110_refuted` |
| `detail/LinePointDistance.hpp:12-35` | no second derivative where the nearest point of an edge is about to leave the edge's end | `C110_exact`, `C110_refuted` |
| `SwerveTrajectoryGenerator.cpp:226-268` | constraints are not deduplicated: a call repeated often enough gives more equations than unknowns | `C112_overdetermined` |
| `SwerveTrajectoryGenerator.cpp:284-285` | the tolerance is the same for all paths, but for every tolerance there is a path without solution that has one up to that tolerance | `C116_each` |
| `SwerveTrajectoryGenerator.cpp:180-223` | the forces of the modules are not determined by the path: modules may push against each other, and the solver is given no reason not to | `C117_other` |
| `SwerveTrajectoryGenerator.cpp:108-131` | two neighbouring modules whose positions differ by a tiny amount along one axis (0.3 and 0.1 + 0.2, say) count as that far apart, and the step cap follows: a robot that can drive a path cannot drive it if a module is out of line by any small enough amount | `C118_refuted_robot` |
| `SwerveTrajectoryGenerator.cpp:108-131` | in IEEE doubles, a module at 0.1 + 0.2 next to one at 0.3 makes the generated problem of driving one metre infeasible, with any number of control intervals up to 2^50 | `C119_stuck`, `C119_moves` |
| `PointAtConstraint.hpp:63`, `SwervePathBuilder.cpp:191-194` | if the straight guess has a sample on the point to face (facing the middle of the way, even number of control intervals), the problem is not differentiable at the values the solver starts from | `C120_facing_refuted`, `C120_refuted` |
| `SwerveTrajectoryGenerator.cpp:168-222` | the first sample's forces and accelerations are constrained by the dynamics but move nothing: every solution can be changed there without loss, so what is written into the result's first sample is up to the solver | `C121_pushed`, `C121_refuted` |
| `SwerveTrajectoryGenerator.cpp:169` | the heading constraint allows half a turn at every sample: the first example program has at least 2^41 fastest trajectories | `C121_turned`, `C121_example_refuted` |
| `PointAtConstraint.hpp:62` | with heading tolerance 0 the inequality can only hold with equality (the heading has norm 1), so the problem has no inside; limits of 0 on speeds and accelerations are made equations (`AngularVelocityMaxMagnitudeConstraint.hpp:48-53`), this one is not | `C122_facing_refuted` |
| `SwerveTrajectoryGenerator.cpp:108-142` | a straight path as long as the number of control intervals times the least gap can be driven, but leaves no room between the cap of the time step and the wheels' top speed | `C122_reach`, `C122_refuted` |
| `SwerveTrajectoryGenerator.cpp:56-58` | `lastFrameTime` is set before the solution is constructed: if that is refused memory no callback is called, and the next report of another generation within 1/60 s is dropped | `C123_frame_refuted` |
| `SwerveTrajectoryGenerator.cpp:214-217` | limits are written as squares (`‖F‖² ≤ maxF²`), so a module without torque gives a constraint whose gradient is zero wherever it holds; then no feasible point satisfies the first-order conditions that the solver looks for, though a fastest trajectory exists | `C124_refuted` |
| `SwerveTrajectoryGenerator.cpp:210-217`, `PointPointConstraint.hpp:51-61` | wheel limits of zero and keep-out distances of zero are written as inequalities between squares (velocity and acceleration limits of zero are not: they become equations); their gradients vanish where they hold with equality | `C125_mute`, `C125_touch` |
| `SwerveTrajectoryGenerator.cpp:271, 274-294` | start values are set in the constructor only: `Generate` called again on the same generator starts where the solver stopped, not at the initial guess, and may succeed where the first call failed | `C126_values`, `C126_refuted` |
| `Rotation2.hpp:33-34`, `SwervePathBuilder.cpp:27-37` | a heading of several turns is stored as cosine and sine only: full turns asked for are ignored | `C128_problem` |
| `SwerveTrajectoryGenerator.cpp:142, 296-342` | a trajectory given back as the guess, point by point, is not where the solver starts: time steps begin with 5 s per segment and forces with 0, and velocities follow from a fixed time step | `C129_refuted` |

Also noted: the obstacle in example 5 of `examples/Swerve/src/Main.cpp` has no effect since no bumpers are
set (C27).  The Rust constructor value-initialises the builder, so that there mass and inertia are
zero instead of uninitialised (`C51_new`).

## Properties

For each property: model and proof plan.  "Refuted" means the code violates the
property as stated; the negation is proved with a concrete witness and the strongest true part
is proved as `…_partial`.

* C01 `getIndex` with 64-bit wrap; induction over the count list; tiling stated with prefix sums.
* C02, C03 `linspace`, `angleLinspace` over ℝ; case analysis of `trunc`; `Real.Angle`-free, with `∃ k : ℤ`.
* C04–C07 `initialGuess`; induction over segments; C04 for every `D`.
* C08–C15, C64 operations as an inductive `Op`; invariants by induction over histories, for every `D`.
* C16–C25 each `Apply` evaluated over ℝ and compared to Euclidean statements.
  C19, C20, C24 refuted (antiparallel velocity; heading off by π; distance squared twice).
* C26–C28 obstacle expansion.  C26 refuted (early return; wrong closing corner, which throws).
  C28 refuted (crossing edges), proved for non-crossing outlines.
* C29–C31 refinement: the constructed `Problem` against `Spec.Obeys`; C30 all outcomes.
* C32–C38 consequences of `Spec.Obeys`.  C33 refuted without a pose constraint; C34 refuted (flip by π).
* C39 refuted (step cap depends on order), rest proved. C40, C41, C61 invariances from C29.
* C42–C44 objective, start values, shape. C45, C46 trajectory.
* C47–C50 transition system, invariants over all event lists. C49, C50 refuted (rate limit).
* C51–C54, C62, C63 FFI.  C53 refuted (bumpers accumulate), C62 (triangles), C63 (no waypoints).
* C55–C59 geometry over ℝ. C59 refuted (not normalised).
* C60 `expected` as a sum type with storage states.
* C65–C68 speed, duration and reach limits from wheel limits and the step cap; straight-line trajectories built explicitly.
* C69, C70 the same refinement with every constraint relaxed by `ε`; drift bounds by induction over samples.
* C71 composition of C51, C54, C44, C45, C29, C31, C33–C35, C26 and C28, stated on Rust calls and returned numbers only.
* C72 invariant over histories (a segment's constraints are at its ends), then index arithmetic on samples and segments; existence of the parts by writing down the calls that build them.
* C73–C75 the model run on rounded arithmetic; inequalities on accumulated rounding errors, refutations by evaluating `rnd64` at given rationals.
* C76 the generated constraints with double constants equal those of a real drivetrain with slightly different limits; then C29's decomposition and C75.
* C77 invariant "no guess list is empty" survives every edit; the constructor's outcome depends on sizes only; C29's decomposition needs no invariant.
* C78 compactness: with a pose prescribed the headings are unit, so the trajectories are a closed set bounded by the limits and the time of any one trajectory.
* C79 an explicit slow motion: in step k of N the robot covers the share 6k(N-k)/(N(N²-1)) of the curve's parameter and of the turn's, so that speeds and accelerations shrink with N; the mean force plus a couple about the mean module position gives wheel forces.
* C80 as C41 and C61: a change of all quantities in the calls (`Change`), each constraint and equation scaled; refuted by distances from lines, which are compared squared with unsquared.
* C81 composition of C11–C13, C26 and C27 over a history, with the specification `PathTable.after` of one call.
* C82 C81 gives the examples' paths, C79 their trajectories (example 7 along half a circle), C78 the fastest; refuted by C69 for the Rust example and the skipped test. C61's mirror image gives the symmetry of example 7.
* C83 consequences of `Obeys`, whose waypoints are those with a count; refuted by a history with too few counts.
* C84 from C43: differences over the guess's time step `5 (K+1) / S`, integrated with the segment's `5 / N`.
* C85 `Obeys` gives speeds below a tent over the samples, whose sum is ⌊N²/4⌋; the tent itself is a trajectory; equality in the triangle inequality gives uniqueness.
* C86 a new event and phase in `Runtime`; invariants over schedules as for C50.
* C87 a heap of generator objects whose closures hold addresses (`Model/Objects`); refuted by five short histories, proved without copies and moves; what any history does, copies and moves included, is read off the history (`Spec/Provenance`).
* C88 the same functions with IEEE special values, unrounded, for `double` (`Model/Wide`), each constraint tested on the difference of its sides; exact meaning of all ten constraints, of the dynamics and of the step cap, including zero wheel radius; the operations themselves are compared with Mathlib's extended reals and with limits (`Spec/Extended`).
* C89 momentum and energy: sum of forces and torques over time; work, kinetic energy and the loss of implicit Euler; power limit (`Props/Energy`)
* C90 better drivetrains: more torque and less mass keep every trajectory; faster wheels do not, because of the step cap (`Props/Stronger`)
* C91 robot axes: quarter turns of the robot's axes change nothing; other angles nothing but the step cap, which they do change (`Props/Axes`)
* C92 data races: happens-before over schedules; the flag and the initialisation of `lastFrameTime` are safe, its later reads and assignments are not (`Model/Access`, `Spec/Race`, `Props/Race`)
* C93 every builder call, the guess and the start values commute with reading reals as finite doubles (`Spec/WidePath`, `Lemmas/WidePath`, `Props/Finite`); segments without intervals start at infinity and make the objective NaN
* C94 the fastest time as a function of the number of control intervals (from C85), a path that only few samples can drive, and waiting as a way to use up more intervals (`Props/Intervals`)
* C95 reverse a trajectory (positions shifted by two samples against accelerations), when that obeys the reversed path, and a path that cannot be reversed (`Spec/Backwards`, `Props/Backwards`)
* C96 IEEE doubles (`Model/Ieee`): readings of doubles that respect finite operations (`Lemmas/Ieee`) commute with builder calls and with every generated constraint (`Lemmas/IeeePath`, `Lemmas/IeeeProblem`), so C76 applies; magnitudes of all start values (`Lemmas/IeeeGuess`); overflow refutes the rest
* C97 between samples (`Spec/Clearance`, `Lemmas/Clearance`): chord lemma for corners and edges, then outlines that start without crossing cannot come to cross (small steps of an interpolation, C28 at each); C38 bounds the move of robots that do not turn; a path through a point keep-out refutes the rest
* C98 insides: a connected set that is partly inside another meets its border; corners that move less than twice the clearance cannot pass the border (`Lemmas/Clearance`), C97 keeps the outlines apart; a robot driving over a round obstacle refutes the rest
* C99 continuous time (`Spec/Exact`, `Lemmas/Exact`): a function with zero derivative is constant, so a leg with constant acceleration is quadratic; telescoping over a segment leaves half a control interval of the change of velocity
* C100 references (`Model/Alias`, `Spec/Alias`): vectors with a capacity and a buffer number; appending to a full one changes the number and a read through an older number is undefined; the loop of `SgmtConstraint` is followed by induction
* C101 `expected<void, E>` (`Model/ExpectedVoid`, `Spec/ExpectedVoid`): the same store as C60 without values; case analysis over kinds, `noexcept` flags and the oracle, then induction over programs
* C102 What every call does (`Spec/Respond`): one lemma per call for well-formed builders, `recordAll` against `requireEach` by induction, and induction over histories
* C103 slower (`Spec/Slow`): scaling the time of a trajectory preserves the kinematics, dynamics and every constraint type; only the cap on the time step is left, which also bounds the duration of every solution
* C104 memory (`Model/Exhaust`, `Spec/Exhaust`): the builder statement by statement with an oracle that refuses requests for memory; a relation between builders before and after every piece of a call, composed over statements, loops and histories
* C105 scalar operations of C96 (`Spec/IeeeSpecial`): rounding characterised by nearness and even multiples of the gap, independently of exponents; operations compared with the extended real line case by case
* C106 (`Spec/Turn`): angular velocities form a sequence with bounded steps that starts and ends at zero, so its sum is at most that of the tent; headings follow it up to half turns, hence the restriction to quarter turns
* C107 (`Spec/Serde`): derived reading code as a fold over entries with one slot per field; the fold is split into one fold per field, each of which finds exactly one entry; errors (`Spec/SerdeErrors`) by what the slots say has been met
* C108 (`Spec/Looser`): relation between programs, carried through the specification of every call (C102) to a relation between paths, then to their trajectories
* C109 (`Spec/Gradient`): rates of change of the generated expressions (`Lemmas/Gradient`); in the positive part the direction is built sample by sample, the forces last; with later waypoints (`Props/Steer`) the last two control intervals of each segment steer position, heading and velocities to what the waypoint asks; standing between two places (`Props/Standing`): along the segment the position can only change as the equations of motion are relaxed
* C110 (`Spec/Smooth`): expressions without a zero denominator, zero radicand or sign change are smooth (`Lemmas/Smooth`); the generated ones are of this kind away from corners; at corners restrict to a line of assignments
* C111 (`Spec/Locality`): which variables occur in an expression or constraint; from the closed form of the generated problem, constraint by constraint
* C112 (`Spec/Size`): count the constraints of the closed form; repeating a call by C11 and C40
* C113 (`Spec/Limit`): drive the stretch a little faster (time times k < 1): positions and headings stay, velocities grow by 1/k, accelerations and forces by 1/k²; every inequality that is not tight survives for k near 1
* C114 (`Spec/Divide`): the same states with the segment's time step twice; faster: the odd hop of C94, whose extra interval may take no time once it is a segment of its own
* C115 (`Spec/Reguess`): relate two builders that differ in guesses only, call by call; then C30 and the closed form of the generator
* C116 (`Spec/Nearby`): trajectories up to tolerances going to 0 lie in a compact set; a limit of them is feasible by C69
* C117 (`Spec/Mix`): with turning and times fixed the problem is linear, its limits convex; keep-outs are not
* C118 (`Spec/Stable`): a trajectory of a nearby path obeys the path up to K times the difference; then C116
* C119 (`Props/Tenth`): one step of C96's loosened problem goes at most four gaps; distinct doubles are at least 2^-1074 apart; 0.1 + 0.2 by ties to even
* C120 (`Props/Begin`): all headings of the guess are unit vectors (C07), so line segments on the robot keep their length; C110's smoothness and kink at the guess's states; the straight guess by C02
* C121 (`Props/Unique`): C85's fastest velocities summed up; equality in the triangle inequality for the forces; the first sample occurs in no interval's force equation; half a turn swaps opposite modules; reflection (C61) of a path and robot that are their own mirror images
* C122 (`Props/Interior`): strict reading of every generated inequality (`Lemmas/Interior`), shown equal to `Roomy`, stated in the trajectory's own terms; C103's slowing down makes speeds and forces strictly smaller; C67's straight paths for the exact length
* C123 (`Model/Refuse`, `Props/Refuse`): refused allocations as events of `Model/Runtime`'s process; a simulation by processes with enough memory in which the failed generation ends otherwise
* C124 (`Props/FirstOrder`): conditions of Fritz John for a constrained minimum, by penalties (`Lemmas/FritzJohn`); definedness near a point without corners, redundant equations left out (C109), smoothness (C110); the equations are independent (C109), and driving slower (C103) is a direction in which no equation changes and every active limit recedes (`Lemmas/Eased`), so that the multiplier of the time is not zero Refutation (`Props/Unbalanced`): a direction in which the cost falls and to which no constraint objects excludes multipliers; a robot rolling freely, the direction pulls and arrives earlier.
* C125 (`Props/Responds`): for squares, scaling the velocity, the force or the distance (rate twice the limit); for distances to segments, moving away from the nearest point, which stays the nearest (`nearest_away`); conversely, a limit that is reached where its left-hand side is least has rate zero in every direction
* C126 (`Spec/Again`, `Props/Again`): invariant of the schedules of `Model/Runtime`: only the solver's writes change a generator, and only the values of its variables; a call of `Generate` is then a function of the values that the last one left
* C127 (`Spec/Watch`, `Props/Watch`): replacing the list of callbacks commutes with every other call and with the constructor of the generator; processes that differ only in what callbacks do to their solutions simulate each other
* C128 (`Spec/Turns`, `Props/Turns`): replacing every angle by a chosen one of the same direction commutes with all calls and does not change what constraints add to the problem
* C129 (`Spec/Return`, `Props/Return`): C43 and C06 with as many guess points as control intervals

## Axioms

Generated by `tools/axioms.py`.

* no axioms (1): C02_empty.
* `propext` (8): C02_length, C123_where, C60_combine, C60_functor, C60_monad, C60_observe, C60_unequal_void_partial, C87_refuted.
* `Quot.sound`, `propext` (39): C01_out_of_range, C01_sample_count, C01_waypoint_sample, C100_temporary, C101_call, C101_ends, C101_history, C101_history_throwing, C115_calls, C115_path, C123_only, C126_start, C127_calls, C127_edits, C127_memory, C127_path, C27_add_bumpers, C48_lost_cancel, C50_rate_refuted, C50_solution_refuted, C51_new, C54_progress, C60_assign_refuted, C60_call, C60_convert_refuted, C60_copy_refuted, C60_emplace_list_partial, C60_emplace_list_refuted, C60_emplace_refuted, C60_equal, C60_equal_void, C60_history, C60_throwing_partial, C60_unequal_void_refuted, C77_edit_members, C86_again, C86_only, C87_copy_partial, C87_own.
* `Classical.choice`, `Quot.sound`, `propext` (472): C01_segment_samples, C01_tiling, C02_entry, C02_last, C02_range, C02_steps, C03_last, C03_last_heading, C03_short_way, C04_guess_lengths, C04_guess_times, C05_start, C05_waypoints, C06_segment_points, C07_range, C07_unit_headings, C08_first, C08_first_exception, C08_tables, C09_default_counts, C09_set_counts, C100_refuted, C100_sgmt_partial, C100_wpt, C102_call, C102_history, C102_in_order, C103_cost_partial, C103_limit_partial, C103_longest, C103_refuted, C103_slower_partial, C103_time, C104_complete_partial, C104_granted, C104_history, C104_kept, C104_refuted, C104_refuted_segment, C104_stuck, C104_unchanged_partial, C105_abs, C105_add, C105_atan2, C105_compare, C105_div, C105_format, C105_hypot, C105_limits, C105_literals, C105_mul, C105_neg, C105_rounding, C105_sign, C105_sin_cos, C105_trunc, C106_angle_partial, C106_fastest, C106_refuted, C106_time_partial, C107_errors, C107_order, C107_read, C107_refuted, C107_saved_partial, C108_constraint, C108_fastest_partial, C108_path_partial, C108_refuted, C108_throws, C109_coast_refuted, C109_direction_refuted, C109_norms, C109_poses_refuted, C109_refuted, C109_start_partial, C109_still_refuted, C109_stops_partial, C109_turn_refuted, C10_append_only, C110_exact, C110_facing_refuted, C110_refuted, C110_smooth_partial, C111_cost, C111_depends, C111_local, C111_owner, C111_scope, C111_used, C112_equations, C112_freedom, C112_inequalities, C112_overdetermined, C112_variables, C113_fastest, C113_moves, C113_stretch, C114_equal, C114_exists, C114_faster, C114_helps, C114_same, C115_problem, C115_solves, C116_always, C116_close, C116_each, C116_fastest, C116_none, C117_between_partial, C117_forces, C117_least, C117_other, C117_refuted, C118_close_partial, C118_fastest_partial, C118_none_partial, C118_refuted_length, C118_refuted_path, C118_refuted_robot, C119_moves, C119_slow, C119_stuck, C11_sgmt_constraint, C11_wpt_constraint, C120_facing_refuted, C120_refuted, C120_smooth_partial, C120_straight, C120_values, C121_example_refuted, C121_motion_partial, C121_pushed, C121_refuted, C121_sides_refuted, C121_turned, C122_facing_refuted, C122_inside, C122_reach, C122_refuted, C122_slower_partial, C122_wheel_refuted, C123_again, C123_frame_refuted, C123_never_crashes, C123_others, C124_balance_partial, C124_example, C124_multipliers_partial, C124_refuted, C125_example, C125_mute, C125_reached, C125_touch, C126_again_partial, C126_memory, C126_problem, C126_refuted, C126_values, C127_problem, C128_calls, C128_problem, C128_solves, C128_turn, C129_poses_partial, C129_refuted, C12_pose_wpt, C12_translation_wpt, C12_wpt_guess, C13_last, C13_order, C13_sgmt_guess, C14_commute, C15_rejected, C15_sgmt_partial_effect, C16_linear_velocity, C17_linear_acceleration, C18_angular_velocity, C19_partial, C19_refuted, C20_partial, C20_refuted, C21_translation, C22_point_at, C23_point_point, C24_partial, C24_refuted_too_strict, C24_refuted_too_weak, C25_degenerate, C25_line_point_distance, C26_closing_throws, C26_early_return, C26_negative, C26_no_corners, C26_partial, C26_refuted_closing, C26_refuted_early_return, C26_returns, C27_bumpers, C27_no_bumpers, C27_only_bumpers, C28_generated_partial, C28_partial, C28_refuted, C29_problem, C30_outcomes, C31_segment, C31_waypoint, C32_integration, C33_partial, C33_pose_partial, C33_refuted, C33_refuted_speed, C34_partial, C34_refuted, C35_forces, C36_acceleration, C37_wheel_speed, C38_step, C39_partial, C39_rectangle_partial, C39_refuted, C40_monotone, C40_sgmt, C40_wpt, C41_motion, C42_objective, C42_overflow, C43_start, C44_solution, C45_fields, C45_timestamps, C46_defined, C46_initial_guess, C47_final, C47_never_crashes, C47_result, C47_separate, C48_next_iteration, C48_stops, C48_unaffected, C49_partial, C49_refuted, C50_current, C50_order, C50_rate_partial, C50_rate_sequential_partial, C50_solution_partial, C51_call, C51_death, C51_generate, C51_history, C51_survives, C52_equal, C52_unequal, C53_once_partial, C53_partial, C53_rectangle, C53_refuted, C54_generate, C54_progress_defined, C55_angles, C55_assoc, C55_comm, C55_compose, C55_identity, C55_inverse, C55_neg, C55_unit, C56_action, C56_bindings, C56_isometry, C56_pose, C56_products, C56_promotion, C56_rotate, C57_radians, C57_round_trip, C58_metric, C58_norm, C58_polar, C58_scale, C59_partial, C59_refuted, C60_history_throwing_partial, C60_release_leaks, C60_step, C61_mirror, C62_partial, C62_refuted, C63_calls_partial, C63_generate_partial, C63_refuted, C64_callbacks, C64_drivetrain, C64_no_drivetrain, C65_speeds, C66_acceleration, C66_distance, C66_total, C66_turn, C67_infeasible, C67_reach, C67_unreachable, C68_no_time, C68_rest, C69_heading, C69_integration, C69_limit, C69_limits, C69_problem, C70_no_effect, C70_partial, C70_refuted, C71_circle, C71_forces, C71_motion, C71_point_at, C71_segment, C71_turning, C71_waypoint, C71_wheels, C72_cut, C72_cut_exists, C72_ends, C72_fastest_join, C72_fastest_parts, C72_join, C72_join_exists, C73_angle_last_partial, C73_angle_partial, C73_angle_turn, C73_constant, C73_entry_partial, C73_last_partial, C73_monotone, C73_refuted_last, C73_refuted_range, C74_error, C74_monotone, C75_direction_stop, C75_enough, C75_guaranteed_partial, C75_pose_feasible, C75_refuted_direction, C76_enough, C76_guaranteed, C76_objective, C77_edit_call, C77_forgotten, C77_members, C77_outcomes, C77_problem, C77_rebuilt, C78_fastest, C78_monotone, C78_no_modules, C78_optimum, C79_capable, C79_drivable, C79_enough, C79_limits, C79_poses, C79_straight, C80_fastest_partial, C80_refuted, C80_units_partial, C81_call, C81_history, C82_both_sides, C82_cpp_partial, C82_guess_ignored, C82_obstacle_ignored, C82_rust_refuted, C82_shapes, C82_starts_between, C82_test_refuted, C82_test_undefined, C83_counts_partial, C83_default_partial, C83_ignored, C83_refuted, C83_stacked, C83_visited_partial, C84_exact_partial, C84_refuted, C84_scale, C84_single, C84_violated, C85_distance, C85_example, C85_fastest, C85_time, C86_calls, C86_exception, C87_history_partial, C88_abs, C88_add, C88_assert, C88_assert_infinite, C88_atan2, C88_compare, C88_div, C88_exact, C88_finite, C88_functions, C88_hypot, C88_mul, C88_nan, C88_numbers, C88_sub, C88_unlimited_speed, C88_zero_radius, C89_balance, C89_limit, C89_momentum, C89_work, C90_fastest_partial, C90_refuted, C90_stronger_partial, C91_axes_partial, C91_quarter_partial, C91_refuted, C92_one_thread_partial, C92_only_partial, C92_ordered_partial, C92_refuted, C93_calls, C93_guess, C93_problem, C93_program, C93_refuted, C93_start_iff, C93_start_partial, C94_close_partial, C94_refuted_drivable, C94_refuted_slower, C94_time, C94_wait_partial, C95_calm_partial, C95_refuted, C95_refuted_turning, C95_straight_partial, C96_calls, C96_constants, C96_enough, C96_force_refuted, C96_guaranteed, C96_linspace_refuted, C96_problem, C96_start_partial, C96_start_refuted, C96_trajectory, C97_apart_partial, C97_origin_partial, C97_point_partial, C97_refuted, C97_required, C97_translating_partial, C98_outside_partial, C98_refuted, C98_translating_partial, C98_turning_partial, C99_bound_partial, C99_exists, C99_heading, C99_position, C99_refuted, C99_same_partial, C99_segment, C99_velocity.
