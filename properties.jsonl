{"id": "C01", "title": "Sample layout tiles the trajectory", "statement": "For control interval counts N_0..N_{k-1} the trajectory has exactly 1+N_0+...+N_{k-1} samples; waypoint w is sample N_0+...+N_{w-1}; segment s owns exactly the N_s samples after waypoint s up to and including waypoint s+1; the segments' samples are disjoint and together with sample 0 are all samples. An index lookup past the last waypoint throws out_of_range.", "quantifier": "every list of counts (including zeros) whose total fits in size_t, every waypoint, segment and sample index", "why_tests_cant": "Quantifies over count lists of any length and value; a test fixes a few lists.", "anchors": ["include/trajopt/util/TrajoptUtil.hpp:GetIndex", "src/SwerveTrajectoryGenerator.cpp:229-251"]}
{"id": "C02", "title": "Linear interpolation is exact and excludes the start", "statement": "Linspace(a,b,n) returns n values, the k-th (1-based) being a+k(b-a)/n: the last one is b, the start is not repeated, consecutive values differ by (b-a)/n and every value lies between a and b. n=0 gives the empty list.", "quantifier": "all real a,b and all n (real arithmetic)", "why_tests_cant": "All endpoints and all n; equality with b at the end is claimed for every n.", "anchors": ["include/trajopt/util/TrajoptUtil.hpp:Linspace"]}
{"id": "C03", "title": "Angle interpolation takes the short way round", "statement": "AngleLinspace(a,b,n) interpolates linearly from a by a total turn d with -pi < d <= pi and a+d congruent to b modulo 2 pi; no other congruent turn is shorter. In particular the last value is congruent to b.", "quantifier": "all real a,b and all n>=1 (real arithmetic)", "why_tests_cant": "The wrap is two truncations whose correctness depends on which interval of the real line the difference lies in, including the exact multiples of pi.", "anchors": ["include/trajopt/util/TrajoptUtil.hpp:AngleLinspace"]}
{"id": "C04", "title": "Initial guess has one entry per sample", "statement": "Whenever CalculateInitialGuess returns, x, y, thetacos, thetasin and dt all have exactly 1+sum(N) entries, whatever guess points were inserted on the segments (including more guess points than control intervals).", "quantifier": "all guess-point tables and all control interval counts on which the call returns, any scalar arithmetic (also floating point)", "why_tests_cant": "The split of N_s over guess points uses integer division with a remainder; every (N_s, number of points) pair must add up.", "anchors": ["include/trajopt/util/GenerateLinearInitialGuess.hpp:GenerateLinearInitialGuess"]}
{"id": "C05", "title": "Initial guess hits every waypoint guess", "statement": "In the initial guess, the sample of waypoint 0, and of every waypoint whose segment has at least one control interval, has exactly the x, y and heading cosine/sine of that waypoint's guess pose, however many segment guess points were given.", "quantifier": "all guess-point tables with unit headings, all counts, all waypoints (real arithmetic)", "why_tests_cant": "Unbounded number of segments and guess points.", "anchors": ["include/trajopt/util/GenerateLinearInitialGuess.hpp", "include/trajopt/path/SwervePathBuilder.hpp:SgmtInitialGuessPoints"]}
{"id": "C06", "title": "Initial guess passes through segment guess points in order", "statement": "With g guess points on a segment of N_s control intervals and N_s >= g, the j-th guess point (0-based, j<g-1) of the segment is hit exactly at the (j+1)*floor(N_s/g)-th sample of the segment and the last at its last sample.", "quantifier": "all guess-point tables, all counts with N_s >= g (real arithmetic)", "why_tests_cant": "Unbounded number of points and samples.", "anchors": ["include/trajopt/util/GenerateLinearInitialGuess.hpp"]}
{"id": "C07", "title": "Initial guess headings are unit vectors and positions stay in the guessed range", "statement": "Every heading in the initial guess is a unit vector if the first guess pose's is, and every x (y) lies between the least and greatest x (y) of the guess points.", "quantifier": "all guess-point tables and counts, every sample (real arithmetic)", "why_tests_cant": "Every sample of every guess.", "anchors": ["include/trajopt/util/GenerateLinearInitialGuess.hpp"]}
{"id": "C08", "title": "Builder tables stay consistent over every call history", "statement": "After any sequence of builder calls, including calls that threw, there is one guess list per waypoint, every guess list is non-empty, and the guess list of waypoint 0 has exactly one pose unless a segment guess was given at index SIZE_MAX.", "quantifier": "all finite sequences of builder operations with arbitrary arguments (including ones that throw and are caught), any scalar arithmetic", "why_tests_cant": "Histories are unbounded.", "anchors": ["src/path/SwervePathBuilder.cpp", "include/trajopt/path/SwervePathBuilder.hpp"]}
{"id": "C09", "title": "Default control interval counts", "statement": "If ControlIntervalCounts was never called, there is exactly one count per segment (waypoints-1) and all are 40; after ControlIntervalCounts(c) the counts are c followed by one 40 for every waypoint created since (other than waypoint 0).", "quantifier": "all histories of builder calls, any scalar arithmetic", "why_tests_cant": "Histories are unbounded.", "anchors": ["src/path/SwervePathBuilder.cpp:NewWpts", "src/path/SwervePathBuilder.cpp:ControlIntervalCounts"]}
{"id": "C10", "title": "Builder calls only append", "statement": "No builder call ever removes, reorders or changes a constraint already recorded at any waypoint or segment, nor removes a waypoint; a call naming waypoint k (k<2^63) makes waypoints 0..k exist, new ones unconstrained with guess pose (0,0,0).", "quantifier": "all states and all operations, hence all histories, any scalar arithmetic", "why_tests_cant": "Histories are unbounded.", "anchors": ["src/path/SwervePathBuilder.cpp", "include/trajopt/path/SwervePathBuilder.hpp:WptConstraint,SgmtConstraint"]}
{"id": "C11", "title": "Constraint calls record exactly what they say", "statement": "WptConstraint(i,c) adds c to waypoint i's instantaneous constraints and nothing else. SgmtConstraint(i,j,c) with i<j adds c once to the instantaneous constraints of each of waypoints i..j and once to the continuous constraints of each segment between them, and nothing else.", "quantifier": "all states, indices and constraints, any scalar arithmetic", "why_tests_cant": "All index ranges and states.", "anchors": ["include/trajopt/path/SwervePathBuilder.hpp:WptConstraint,SgmtConstraint"]}
{"id": "C12", "title": "Pose and translation waypoints set both constraint and guess", "statement": "PoseWpt(i,x,y,h) adds exactly one pose equality constraint (x,y,heading h) at waypoint i and makes (x,y,h) the waypoint's guess pose; TranslationWpt likewise with a translation equality constraint and the heading only guessed; neither changes any other waypoint or previously inserted segment guess points.", "quantifier": "all states, indices and values, any scalar arithmetic", "why_tests_cant": "All states and indices.", "anchors": ["src/path/SwervePathBuilder.cpp:PoseWpt,TranslationWpt,WptInitialGuessPoint"]}
{"id": "C13", "title": "Segment guess points go between the two waypoints", "statement": "SgmtInitialGuessPoints(i,ps) inserts ps, in order, between waypoint i's guess and everything previously guessed for the segment to waypoint i+1, whose own guess stays last; setting the waypoint guess before or after gives the same table.", "quantifier": "all states, indices (below SIZE_MAX) and point lists, any scalar arithmetic", "why_tests_cant": "All states and lists.", "anchors": ["src/path/SwervePathBuilder.cpp:SgmtInitialGuessPoints,WptInitialGuessPoint"]}
{"id": "C14", "title": "Constraint calls commute", "statement": "Any reordering of a sequence of WptConstraint/SgmtConstraint calls on the same builder leads to the same waypoints, guesses and counts, with the constraint lists of each waypoint and segment equal up to order.", "quantifier": "all permutations of all call lists, all start states, any scalar arithmetic", "why_tests_cant": "All permutations of unbounded lists.", "anchors": ["include/trajopt/path/SwervePathBuilder.hpp:WptConstraint,SgmtConstraint"]}
{"id": "C15", "title": "Indices that do not fit a signed 64-bit integer are rejected without effect", "statement": "A waypoint-constraint or waypoint-guess call with index >= 2^63 throws out_of_range and leaves the builder unchanged.", "quantifier": "all states with at most 2^63 waypoints (all reachable ones) and all such indices", "why_tests_cant": "The conversion size_t -> int64_t is only exercised by huge indices.", "anchors": ["src/path/SwervePathBuilder.cpp:NewWpts"]}
{"id": "C16", "title": "Linear velocity limit means what it says", "statement": "A sample satisfies the constraint generated by LinearVelocityMaxMagnitudeConstraint{m}, m>=0, exactly when the Euclidean norm of its linear velocity is at most m.", "quantifier": "all m>=0 and all samples (real arithmetic)", "why_tests_cant": "The code has two branches and compares squares; equivalence for all reals.", "anchors": ["include/trajopt/constraint/LinearVelocityMaxMagnitudeConstraint.hpp:Apply"]}
{"id": "C17", "title": "Linear acceleration limit means what it says", "statement": "Same for LinearAccelerationMaxMagnitudeConstraint{m} and linear acceleration.", "quantifier": "all m>=0 and all samples (real arithmetic)", "why_tests_cant": "Equivalence for all reals.", "anchors": ["include/trajopt/constraint/LinearAccelerationMaxMagnitudeConstraint.hpp:Apply"]}
{"id": "C18", "title": "Angular velocity limit means what it says", "statement": "A sample satisfies the constraint generated by AngularVelocityMaxMagnitudeConstraint{m}, m>=0, exactly when |omega| <= m; for m<0 (assert compiled out) no sample satisfies it.", "quantifier": "all m and all samples (real arithmetic)", "why_tests_cant": "Equivalence for all reals.", "anchors": ["include/trajopt/constraint/AngularVelocityMaxMagnitudeConstraint.hpp:Apply"]}
{"id": "C19", "title": "Velocity direction constraint fixes the direction", "statement": "A sample satisfies LinearVelocityDirectionConstraint{a} exactly when its linear velocity is a nonnegative multiple of (cos a, sin a).", "quantifier": "all angles and samples (real arithmetic)", "why_tests_cant": "Equivalence for all reals; the code squares the condition.", "anchors": ["include/trajopt/constraint/LinearVelocityDirectionConstraint.hpp:Apply"]}
{"id": "C20", "title": "Pose equality fixes position and heading", "statement": "A sample satisfies PoseEqualityConstraint{x,y,h} exactly when its position is (x,y) and its heading vector is (cos h, sin h).", "quantifier": "all poses and samples (real arithmetic)", "why_tests_cant": "The heading condition is a cross product, whose zero set must be characterised for all values.", "anchors": ["include/trajopt/constraint/PoseEqualityConstraint.hpp", "include/trajopt/geometry/Pose2.hpp:operator==", "include/trajopt/geometry/Rotation2.hpp:operator=="]}
{"id": "C21", "title": "Translation equality fixes the position and nothing else", "statement": "A sample satisfies TranslationEqualityConstraint{x,y} exactly when its position is (x,y).", "quantifier": "all positions and samples (real arithmetic)", "why_tests_cant": "Equivalence for all reals.", "anchors": ["include/trajopt/constraint/TranslationEqualityConstraint.hpp", "include/trajopt/geometry/Translation2.hpp:operator=="]}
{"id": "C22", "title": "Point-at constraint bounds the heading error", "statement": "For a sample with unit heading and 0<=tol<=pi, PointAtConstraint{p,tol} holds exactly when the robot is at p or the angle between its heading and the direction to p is at most tol.", "quantifier": "all points, tolerances in [0,pi], samples with unit heading (real arithmetic)", "why_tests_cant": "Trigonometric equivalence for all reals.", "anchors": ["include/trajopt/constraint/PointAtConstraint.hpp:Apply"]}
{"id": "C23", "title": "Point-point keep-out means what it says", "statement": "A sample satisfies PointPointConstraint{r,p,d}, d>=0, exactly when the field position of robot point r is at least d from p.", "quantifier": "all points, d>=0, samples (real arithmetic)", "why_tests_cant": "Equivalence for all reals.", "anchors": ["include/trajopt/constraint/PointPointConstraint.hpp:Apply"]}
{"id": "C24", "title": "Segment keep-out distances mean what they say", "statement": "A sample satisfies LinePointConstraint{a,b,p,d} (PointLineConstraint{r,a,b,d}), d>=0, exactly when every point of the robot (field) segment is at least d from the field (robot) point.", "quantifier": "all segments, points, d>=0 and samples (real arithmetic)", "why_tests_cant": "Requires the minimum over a continuum of segment points for all reals.", "anchors": ["include/trajopt/constraint/LinePointConstraint.hpp:Apply", "include/trajopt/constraint/PointLineConstraint.hpp:Apply", "include/trajopt/constraint/detail/LinePointDistance.hpp"]}
{"id": "C25", "title": "Line-point distance is the squared distance to the segment", "statement": "For distinct end points, LinePointDistance returns the minimum over the segment of the squared distance to the point; for coinciding end points it is not a number, so no sample satisfies a constraint built from it.", "quantifier": "all segments and points (real arithmetic)", "why_tests_cant": "Minimum over a continuum; the clamp is built from sign().", "anchors": ["include/trajopt/constraint/detail/LinePointDistance.hpp"]}
{"id": "C26", "title": "Obstacle calls constrain every edge-corner pair", "statement": "WptObstacle / SgmtObstacle add, for every registered bumper polygon, a keep-out constraint of the summed safety distances between every bumper edge and every obstacle corner and between every obstacle edge and every bumper corner (point-point when a shape is a single point), closing edges included.", "quantifier": "all bumper lists and obstacles with at least one point each, any scalar arithmetic", "why_tests_cant": "All polygon sizes; the repository's only obstacle test is skipped.", "anchors": ["src/path/SwervePathBuilder.cpp:WptObstacle,SgmtObstacle"]}
{"id": "C27", "title": "Obstacles see only the bumpers registered before them", "statement": "An obstacle call records constraints for exactly the bumpers registered earlier in the history; with no bumpers it has no effect at all, and AddBumpers never changes recorded constraints.", "quantifier": "all histories, any scalar arithmetic", "why_tests_cant": "Histories are unbounded.", "anchors": ["src/path/SwervePathBuilder.cpp:AddBumpers,WptObstacle,SgmtObstacle"]}
{"id": "C28", "title": "Keep-out constraints keep robot and obstacle apart", "statement": "If a sample satisfies keep-out distance d between every corner of each polygon and every edge of the other, then no point of the bumper outline is closer than d to any point of the obstacle outline.", "quantifier": "all polygons, distances and samples (real arithmetic)", "why_tests_cant": "Continuum of outline points, polygons of any size.", "anchors": ["src/path/SwervePathBuilder.cpp:WptObstacle", "include/trajopt/obstacle/Obstacle.hpp"]}
{"id": "C29", "title": "The generated problem is the stated optimal control problem", "statement": "For every builder with a drivetrain, at least one waypoint and no more segments than waypoints-1, constructing the generator succeeds, and an assignment of its decision variables is feasible exactly when the trajectory it encodes satisfies: the kinematic equations on every interval, the dynamics equations, wheel speed and force limits at every sample, dt>=0 and the step-size cap on every segment, every waypoint constraint at its waypoint's sample and every segment constraint at every sample of its segment - and nothing else. Every trajectory is encoded by some assignment.", "quantifier": "all builders meeting the precondition with finite data, all assignments (real arithmetic)", "why_tests_cant": "Any number of waypoints, samples, modules and constraints.", "anchors": ["src/SwerveTrajectoryGenerator.cpp:SwerveTrajectoryGenerator"]}
{"id": "C30", "title": "Generator construction fails exactly on inconsistent builders", "statement": "Construction throws out_of_range when there are more counts than segments, is undefined behaviour when there are no waypoints or no drivetrain was set, and otherwise succeeds.", "quantifier": "all reachable builders, any scalar arithmetic", "why_tests_cant": "All histories.", "anchors": ["src/SwerveTrajectoryGenerator.cpp:SwerveTrajectoryGenerator", "include/trajopt/util/GenerateLinearInitialGuess.hpp", "include/trajopt/drivetrain/SwerveDrivetrain.hpp"]}
{"id": "C31", "title": "Segment constraints hold from waypoint to waypoint", "statement": "After SgmtConstraint(i,j,c), i<j, at any point of the history, every feasible trajectory satisfies c at every sample from waypoint i's to waypoint j's, both included; after WptConstraint(i,c) at waypoint i's sample.", "quantifier": "all histories, constraints, feasible trajectories (real arithmetic)", "why_tests_cant": "All histories and index arithmetic over all count lists.", "anchors": ["src/SwerveTrajectoryGenerator.cpp:226-269", "include/trajopt/path/SwervePathBuilder.hpp:SgmtConstraint"]}
{"id": "C32", "title": "Position and velocity integrate consistently", "statement": "On every feasible trajectory the displacement between any two samples equals the sum of velocity times dt over the samples in between (end included, start excluded), and likewise velocity from acceleration and angular velocity from angular acceleration.", "quantifier": "all feasible trajectories, all sample pairs (real arithmetic)", "why_tests_cant": "Induction over unbounded sample counts.", "anchors": ["src/SwerveTrajectoryGenerator.cpp:146-174"]}
{"id": "C33", "title": "Heading stays a unit vector", "statement": "On every feasible trajectory every heading is a unit vector.", "quantifier": "all feasible trajectories and samples (real arithmetic)", "why_tests_cant": "Induction along the trajectory; depends on which waypoint constraints are present.", "anchors": ["src/SwerveTrajectoryGenerator.cpp:170", "include/trajopt/geometry/Rotation2.hpp:operator=="]}
{"id": "C34", "title": "Heading changes by omega*dt", "statement": "On every feasible trajectory the heading of each sample is the previous one rotated by omega*dt.", "quantifier": "all feasible trajectories and samples (real arithmetic)", "why_tests_cant": "The manifold constraint is a cross product whose zero set must be characterised.", "anchors": ["src/SwerveTrajectoryGenerator.cpp:170", "include/trajopt/geometry/Rotation2.hpp:operator=="]}
{"id": "C35", "title": "Forces produce the accelerations", "statement": "On every feasible trajectory, at every sample, the module forces sum to mass times acceleration and the torques of the module forces about the robot's origin, with module positions rotated into the field frame, sum to moi times angular acceleration; each force is within torque/radius.", "quantifier": "all drivetrains, feasible trajectories and samples (real arithmetic)", "why_tests_cant": "Any number of modules and samples.", "anchors": ["src/SwerveTrajectoryGenerator.cpp:176-224"]}
{"id": "C36", "title": "Acceleration is bounded by the drivetrain", "statement": "On every feasible trajectory the linear acceleration is at most the sum of maximal module forces over the mass, and the angular acceleration at unit heading at most the sum of module distance times maximal force over the moment of inertia.", "quantifier": "all drivetrains with positive mass, moi and radii, feasible trajectories, samples (real arithmetic)", "why_tests_cant": "Any number of modules.", "anchors": ["src/SwerveTrajectoryGenerator.cpp:176-224"]}
{"id": "C37", "title": "Wheel speed limits hold", "statement": "On every feasible trajectory with unit headings the speed of each wheel's contact point (robot velocity plus omega cross module position, in the field frame) is at most wheel radius times maximal wheel speed.", "quantifier": "all drivetrains, feasible trajectories and samples with unit heading (real arithmetic)", "why_tests_cant": "Frame change for all headings.", "anchors": ["src/SwerveTrajectoryGenerator.cpp:200-212"]}
{"id": "C38", "title": "No step longer than the robot", "statement": "On every feasible trajectory with unit headings, a robot whose module positions average to its origin moves per control interval at most the smallest nonzero coordinate gap between consecutively listed modules.", "quantifier": "all such drivetrains, feasible trajectories and intervals (real arithmetic)", "why_tests_cant": "Any number of modules and samples.", "anchors": ["src/SwerveTrajectoryGenerator.cpp:108-131"]}
{"id": "C39", "title": "Module order does not matter", "statement": "Listing the same modules in another order gives an equivalent problem: the same trajectories (with module forces permuted alike) are feasible.", "quantifier": "all drivetrains and permutations (real arithmetic)", "why_tests_cant": "All permutations of any number of modules; documented in SwerveDrivetrain.hpp.", "anchors": ["include/trajopt/drivetrain/SwerveDrivetrain.hpp", "src/SwerveTrajectoryGenerator.cpp:108-131"]}
{"id": "C40", "title": "More constraints never admit more trajectories; duplicates and order are irrelevant", "statement": "Adding any constraint to any waypoint or segment never makes an infeasible trajectory feasible; adding a constraint that is already there, or reordering them, changes nothing.", "quantifier": "all builders, constraints and trajectories (real arithmetic)", "why_tests_cant": "All builders.", "anchors": ["src/SwerveTrajectoryGenerator.cpp:226-269"]}
{"id": "C41", "title": "The problem does not depend on the choice of field frame", "statement": "Translating and rotating all field data of a path (poses, directions, points, segments) maps feasible trajectories to feasible trajectories with the same dt, forces rotated, and conversely.", "quantifier": "all paths, rigid motions and trajectories (real arithmetic)", "why_tests_cant": "Continuum of motions, all constraint kinds.", "anchors": ["src/SwerveTrajectoryGenerator.cpp", "include/trajopt/constraint/Constraint.hpp"]}
{"id": "C42", "title": "The minimised quantity is the trajectory's duration", "statement": "The objective equals the sum over segments of N_s*dt_s, which is the last timestamp of the trajectory built from the solution.", "quantifier": "all count lists with N_s < 2^31 and all assignments (real arithmetic)", "why_tests_cant": "All count lists; counts are cast to int.", "anchors": ["src/SwerveTrajectoryGenerator.cpp:133-144", "include/trajopt/trajectory/HolonomicTrajectory.hpp"]}
{"id": "C43", "title": "Solver start values are the initial guess and its finite differences", "statement": "After construction the position and heading variables hold the initial guess; velocities and accelerations are zero at sample 0 and backward differences over the guessed dt elsewhere; angular velocity is the shortest turn between consecutive headings over dt.", "quantifier": "all builders meeting the precondition, all samples (real arithmetic)", "why_tests_cant": "Any number of samples; the recurrence reads back values written earlier.", "anchors": ["src/SwerveTrajectoryGenerator.cpp:ApplyInitialGuess"]}
{"id": "C44", "title": "Returned solutions are complete and consistent in shape", "statement": "Every solution returned or passed to a callback has sum(N) dt entries, 1+sum(N) entries in every state vector and 1+sum(N) rows of one force per module, each equal to the corresponding decision variable, dt being the segment's value repeated N_s times.", "quantifier": "all builders meeting the precondition and all variable values, any scalar arithmetic", "why_tests_cant": "Any number of samples and modules.", "anchors": ["src/SwerveTrajectoryGenerator.cpp:ConstructSwerveSolution,RowSolutionValue,MatrixSolutionValue"]}
{"id": "C45", "title": "Trajectory timestamps accumulate dt", "statement": "The trajectory built from a solution has one sample per x entry, the first at time 0 and sample k at the sum of the first k dt; timestamps are nondecreasing when dt>=0; all other fields are the solution's; headings lie in (-pi,pi] and reproduce the unit heading's cosine and sine.", "quantifier": "all solutions with vectors of sufficient length (real arithmetic)", "why_tests_cant": "Any number of samples.", "anchors": ["include/trajopt/trajectory/HolonomicTrajectory.hpp"]}
{"id": "C46", "title": "Building a trajectory from a short solution is undefined", "statement": "Constructing a trajectory is defined exactly when every vector has an entry for every x (dt one fewer); in particular it is undefined for any initial guess.", "quantifier": "all solutions", "why_tests_cant": "Unchecked indexing: a test on good data never sees it.", "anchors": ["include/trajopt/trajectory/HolonomicTrajectory.hpp"]}
{"id": "C47", "title": "Generate reports failure exactly on failure", "statement": "Generate returns an error exactly when the solver's exit code is negative or the callback requested a stop, and otherwise the solution made of the solver's final variable values.", "quantifier": "all solver outcomes", "why_tests_cant": "The solver's outcome is arbitrary.", "anchors": ["src/SwerveTrajectoryGenerator.cpp:Generate"]}
{"id": "C48", "title": "Cancelling stops running generations", "statement": "If cancel_all is called while a generation runs, that generation stops at its next iteration with an error, unless another Generate call starts in between; a cancel before Generate starts does not affect it; without cancel no generation is ever stopped by the callback.", "quantifier": "all interleavings of any number of generations, iterations and cancel calls", "why_tests_cant": "All schedules.", "anchors": ["src/util/Cancellation.cpp", "src/SwerveTrajectoryGenerator.cpp:Generate", "src/RustFFI.cpp:cancel_all"]}
{"id": "C49", "title": "Progress callbacks run on every iteration", "statement": "Registered callbacks run at every solver iteration.", "quantifier": "all schedules of iterations and clock readings", "why_tests_cant": "All schedules; documented in AddIntermediateCallback.", "anchors": ["include/trajopt/path/SwervePathBuilder.hpp:AddIntermediateCallback", "src/SwerveTrajectoryGenerator.cpp:45-62"]}
{"id": "C50", "title": "Progress callbacks are rate limited, ordered and carry the handle", "statement": "Two rounds of callbacks in the whole process are at least 1/60 s apart; each round calls every callback registered on that builder exactly once, in registration order, with the generator's handle and the current solution.", "quantifier": "all schedules with a monotone clock", "why_tests_cant": "All schedules, any number of generators.", "anchors": ["src/SwerveTrajectoryGenerator.cpp:45-62"]}
{"id": "C51", "title": "Rust builder calls mean the C++ calls", "statement": "Every Rust builder method has exactly the effect of the corresponding C++ call on the wrapped builder; a call whose C++ counterpart throws aborts the process, except generate, which returns Err.", "quantifier": "all call histories, any scalar arithmetic", "why_tests_cant": "All histories.", "anchors": ["src/RustFFI.cpp", "src/lib.rs"]}
{"id": "C52", "title": "Rust polygon obstacles with unequal coordinate lists are ignored", "statement": "sgmt_polygon_obstacle with x and y of different lengths leaves the builder unchanged; with equal lengths the obstacle's points are the pairs in order.", "quantifier": "all lists and states, any scalar arithmetic", "why_tests_cant": "All list lengths.", "anchors": ["src/RustFFI.cpp:sgmt_polygon_obstacle"]}
{"id": "C53", "title": "set_bumpers sets the bumpers", "statement": "After set_bumpers(l,w) the only bumper polygon is the l-by-w rectangle centred at the robot's origin with safety distance 0.01.", "quantifier": "all states and dimensions, any scalar arithmetic", "why_tests_cant": "All histories (repeated calls).", "anchors": ["src/RustFFI.cpp:set_bumpers", "src/path/SwervePathBuilder.cpp:AddBumpers"]}
{"id": "C54", "title": "Rust sees the C++ trajectory unchanged", "statement": "The trajectory returned by generate and passed to progress callbacks has the same number of samples with the same fields, in order, as the C++ trajectory.", "quantifier": "all solutions, any scalar arithmetic", "why_tests_cant": "Any number of samples and modules.", "anchors": ["src/RustFFI.cpp:generate,add_progress_callback"]}
{"id": "C55", "title": "Rotations form a group", "statement": "Rotation composition is associative, commutative, has identity Rotation2{} and, for unit rotations, inverse -r; composition of Rotation2{a} and Rotation2{b} is Rotation2{a+b}; unit rotations stay unit.", "quantifier": "all rotations (real arithmetic)", "why_tests_cant": "Algebraic law over all reals.", "anchors": ["include/trajopt/geometry/Rotation2.hpp"]}
{"id": "C56", "title": "Rotating is an isometry and an action", "statement": "Rotating translations by unit rotations preserves norms, distances, dot and cross products, distributes over sums, and rotating by r then s is rotating by r+s; rotating a pose rotates every point fixed to the body; promotion of doubles to expressions changes no value; structured bindings give the components.", "quantifier": "all translations and unit rotations (real arithmetic)", "why_tests_cant": "Algebraic law over all reals.", "anchors": ["include/trajopt/geometry/Translation2.hpp:RotateBy", "include/trajopt/geometry/Pose2.hpp:RotateBy"]}
{"id": "C57", "title": "Angles round-trip", "statement": "Rotation2{a}.Radians() lies in (-pi,pi] and is congruent to a modulo 2 pi (equal if a is already in range); Rotation2{r.Radians()} is r for unit r; Degrees is Radians*180/pi.", "quantifier": "all angles and unit rotations (real arithmetic)", "why_tests_cant": "All reals.", "anchors": ["include/trajopt/geometry/Rotation2.hpp:Radians,Degrees"]}
{"id": "C58", "title": "Polar and Cartesian translations agree", "statement": "Translation2{d,r} with unit r has norm |d|; for d>0 its Angle() has the same radians as r; Distance is symmetric, zero only for equal translations and satisfies the triangle inequality; Norm^2 = SquaredNorm.", "quantifier": "all distances, rotations and translations (real arithmetic)", "why_tests_cant": "All reals.", "anchors": ["include/trajopt/geometry/Translation2.hpp"]}
{"id": "C59", "title": "Angle() is a rotation", "statement": "The rotation returned by Translation2::Angle() is a point on the unit circle.", "quantifier": "all nonzero translations (real arithmetic)", "why_tests_cant": "All reals; documented representation invariant of Rotation2.", "anchors": ["include/trajopt/geometry/Translation2.hpp:Angle", "include/trajopt/geometry/Rotation2.hpp"]}
{"id": "C60", "title": "expected behaves like a sum type", "statement": "Generate's result type holds exactly one of value and error through construction, copy, assignment and swap; map/and_then/or_else satisfy the functor and monad laws; equality is componentwise.", "quantifier": "all values, errors and functions", "why_tests_cant": "Laws over all values.", "anchors": ["include/trajopt/util/expected"]}
{"id": "C61", "title": "Mirror symmetry", "statement": "Reflecting the field in every call of a path's history, together with the robot's modules and bumpers, reflects the set of trajectories the generated problem accepts: a trajectory is feasible for the original path exactly if its mirror image is feasible for the mirrored path.", "quantifier": "all call histories, all trajectories (real arithmetic)", "why_tests_cant": "Relates the feasible sets of two programs over all reals and all histories; a sign error in one constraint or one dynamics equation can leave every tested path solvable.", "anchors": ["src/SwerveTrajectoryGenerator.cpp:SwerveTrajectoryGenerator", "include/trajopt/constraint", "src/path/SwervePathBuilder.cpp"]}
{"id": "C62", "title": "Polygon obstacles can be added after set_bumpers", "statement": "From Rust, a polygon obstacle with any non-empty list of corners and valid segment indices can be added after set_bumpers without ending the process.", "quantifier": "all call histories and polygons, any scalar arithmetic", "why_tests_cant": "All polygon sizes and histories; the Rust bindings have no tests of obstacles.", "anchors": ["src/RustFFI.cpp:set_bumpers,sgmt_polygon_obstacle", "src/path/SwervePathBuilder.cpp:SgmtObstacle"]}
{"id": "C63", "title": "The safe Rust API has no undefined behaviour", "statement": "No sequence of calls of the safe Rust methods, generate included, is undefined behaviour in C++.", "quantifier": "all call histories and arguments, any scalar arithmetic", "why_tests_cant": "All histories; undefined behaviour need not show in a test.", "anchors": ["src/lib.rs", "src/RustFFI.cpp", "src/SwerveTrajectoryGenerator.cpp:SwerveTrajectoryGenerator"]}
{"id": "C64", "title": "Drivetrain and callbacks are what was registered", "statement": "The path's drivetrain is the one set last (none if none was set) and its callbacks are exactly those added, in order and multiplicity, whatever other calls were made.", "quantifier": "all call histories, any scalar arithmetic", "why_tests_cant": "All interleavings of calls.", "anchors": ["src/path/SwervePathBuilder.cpp:SetDrivetrain,AddIntermediateCallback"]}
{"id": "C65", "title": "Robot speeds are limited by the wheels", "statement": "On every feasible trajectory with unit headings, a robot whose modules are centred moves no faster than the mean of its wheels' top speeds, and its angular speed times the sum of the squared module distances is at most the sum of module distance times top wheel speed.", "quantifier": "all feasible trajectories of all reachable builders, all drivetrains (real arithmetic)", "why_tests_cant": "All drivetrains and all trajectories; a test only sees the one trajectory the solver returns.", "anchors": ["src/SwerveTrajectoryGenerator.cpp:SwerveTrajectoryGenerator"]}
{"id": "C66", "title": "No trajectory is faster than the drivetrain", "statement": "On every feasible trajectory the time between two samples is at least distance over top wheel speed, at least velocity change over top acceleration, and, from standstill, at least the square root of distance over top acceleration; the heading turns (up to half turns) by an angle possible in that time; the total time is the minimised quantity.", "quantifier": "all feasible trajectories, all pairs of samples (real arithmetic)", "why_tests_cant": "A lower bound over all trajectories cannot be observed on the trajectories a solver happens to find.", "anchors": ["src/SwerveTrajectoryGenerator.cpp:SwerveTrajectoryGenerator"]}
{"id": "C67", "title": "Which straight paths can be driven", "statement": "Between two poses of equal heading the path is feasible exactly when its length is at most the number of control intervals times the least nonzero coordinate gap between consecutively listed modules (centred modules, equal wheel speeds); any path that fixes two positions further apart than that is infeasible.", "quantifier": "all drivetrains, poses and control interval counts (real arithmetic)", "why_tests_cant": "Infeasibility is a statement about all trajectories; a solver failing to find one is no evidence.", "anchors": ["src/SwerveTrajectoryGenerator.cpp:108-122"]}
{"id": "C68", "title": "Standing still is always allowed and takes no time", "statement": "A path all of whose constraints are met by one state at rest is feasible with zero duration; conversely between samples with no time in between position, velocity and angular velocity do not change.", "quantifier": "all reachable builders, all states (real arithmetic)", "why_tests_cant": "All paths; degenerate zero-length steps are not covered by the examples.", "anchors": ["src/SwerveTrajectoryGenerator.cpp:SwerveTrajectoryGenerator"]}
{"id": "C69", "title": "What a solution within the solver's tolerance satisfies", "statement": "An assignment violates no generated constraint by more than e exactly when the trajectory it encodes obeys path and drivetrain up to e (positions, velocities and forces per coordinate; speeds, forces and point distances squared; headings through the components of a complex product); errors of integration then add up to at most e per control interval, heading norms drift by at most a factor (1+e)/(1-e) per interval from a fixed pose, total time is at least -e per control interval, and a trajectory is exactly feasible iff it is feasible up to every e>0.", "quantifier": "all reachable builders, all tolerances, all assignments (real arithmetic)", "why_tests_cant": "The solver returns one of infinitely many assignments within its tolerance; worst-case drift is a statement about all of them.", "anchors": ["src/SwerveTrajectoryGenerator.cpp:284-285"]}
{"id": "C70", "title": "A tolerance of 1e-4 is 0.1 mm", "statement": "The comment next to the solver call: in a trajectory that violates no generated constraint by more than 1e-4, positions and keep-out distances are off by at most 0.1 mm.", "quantifier": "all reachable builders, all trajectories within the tolerance (real arithmetic)", "why_tests_cant": "Needs the worst trajectory within the tolerance, which a solver rarely returns.", "anchors": ["src/SwerveTrajectoryGenerator.cpp:284-285"]}
{"id": "C71", "title": "From Rust calls to returned samples", "statement": "If generate returns Ok and the solver's values satisfy all constraints of the problem, then the returned samples, read as plain numbers, satisfy: one sample per control interval plus one; timestamps start at 0 and never decrease; successive positions differ by the later velocity times the elapsed time, momenta by the later sum of module forces times the elapsed time, and (with a pose prescribed somewhere) angular momenta by the torque of the later forces and headings by angular velocity times time up to half turns; every pose_wpt, translation_wpt, wpt_* and sgmt_* call made at any time binds the samples of its waypoint or range; module forces and wheel speeds are within the motors' limits; and the bumper rectangle stays out of circles added after set_bumpers, at the smaller of distance and square root of distance.", "quantifier": "all histories of Rust calls, all drivetrains, all solver outcomes satisfying the generated constraints (real arithmetic)", "why_tests_cant": "It composes path building, the FFI, problem generation, solution read-out and trajectory conversion over all call histories; a test observes one history and one solution.", "anchors": ["src/lib.rs:182-426", "src/RustFFI.cpp:36-262", "src/SwerveTrajectoryGenerator.cpp:55-402"]}
{"id": "C72", "title": "Cutting and joining at a waypoint", "statement": "Whatever calls built a path, a constraint along a segment is also required at both waypoints of that segment. A path can be cut in two at any waypoint, with both parts buildable, and two paths can be put end to end. Trajectories of the whole path are exactly the trajectories of the two parts that meet in one state, with durations adding up. Hence fastest trajectories of the parts that meet make a fastest trajectory of the whole, and the rest of a fastest trajectory from a waypoint on is fastest from the state there (principle of optimality).", "quantifier": "all reachable builders, drivetrains, waypoints and feasible trajectories (real arithmetic)", "why_tests_cant": "Compares all feasible trajectories of three optimisation problems; a solver run yields one trajectory of one of them.", "anchors": ["include/trajopt/path/SwervePathBuilder.hpp:124-147", "src/SwerveTrajectoryGenerator.cpp:55-285"]}
{"id": "C73", "title": "Interpolation in double arithmetic", "statement": "In double arithmetic Linspace(a, b, n) has n entries, never leaves the range between a and b, moves monotonically, ends exactly at b, and its k-th entry is a + k(b-a)/n up to rounding; AngleLinspace ends at the heading b up to rounding after a turn of at most half a revolution up to rounding.", "quantifier": "all rounded arithmetics with monotone rounding and bounded relative error (IEEE binary64 among them), all doubles a, b, all sample counts up to 2^53", "why_tests_cant": "The exact end is missed only for particular sample counts (49, 25, ...), by one unit in the last place; tests that compare with a tolerance or try a few counts do not see it, and no finite set of doubles establishes the error bound.", "anchors": ["include/trajopt/util/TrajoptUtil.hpp:34-60"]}
{"id": "C74", "title": "Timestamps in double arithmetic", "statement": "Timestamps accumulated in double arithmetic start at 0, never decrease when no step is negative, and the k-th one differs from the exact sum of the first k steps by a relative error of at most (1+u)^k - 1.", "quantifier": "all rounded arithmetics with monotone rounding and bounded relative error (IEEE binary64 among them), all solutions", "why_tests_cant": "Monotonicity under rounding and the error bound are claims about all sums of doubles of any length.", "anchors": ["include/trajopt/trajectory/HolonomicTrajectory.hpp:38-50"]}
{"id": "C75", "title": "Constraints with double constants", "statement": "The constants of constraints are computed in double arithmetic (squares, cosines, sines). Read exactly, the resulting constraints still guarantee what they mean in real arithmetic up to the rounding of the constants: limits and distances to a relative error u in their squares, headings and directions to a multiple of the error of cosine and sine. Conversely no constraint becomes unsatisfiable or much stronger by rounding: a state that meets the real meaning with that much slack meets the rounded constraint.", "quantifier": "all rounded arithmetics with bounded errors (IEEE binary64 among them), all ten constraint types, all double parameters, all assignments", "why_tests_cant": "A solver with a tolerance of 1e-6 hides that the exact constraint has no solution but standing still; a test sees a converged solution.", "anchors": ["include/trajopt/constraint/LinearVelocityDirectionConstraint.hpp:24-49", "include/trajopt/constraint/LinearVelocityMaxMagnitudeConstraint.hpp:42-55", "include/trajopt/constraint/PoseEqualityConstraint.hpp:26-45", "include/trajopt/constraint/PointAtConstraint.hpp:47-64", "include/trajopt/constraint/PointPointConstraint.hpp:51-61"]}
{"id": "C76", "title": "The generated problem in double arithmetic", "statement": "The whole generated problem, with constants computed in double arithmetic from double inputs, is the optimal control problem up to the rounding of constants: every solution obeys path and drivetrain, with forces, torques and integration exact and each limit within its rounding error; every trajectory that obeys them with that much to spare is a solution; and the objective is exactly the duration.", "quantifier": "all rounded arithmetics with bounded errors (IEEE binary64 among them), all call histories, all drivetrains with nonzero wheel radii, all assignments", "why_tests_cant": "It is an equivalence up to explicit error bounds between the generated problem and the physics, for all inputs; a solver run checks one point against one problem, to 1e-4.", "anchors": ["src/SwerveTrajectoryGenerator.cpp:81-270"]}
{"id": "C77", "title": "Changing the path through GetPath()", "statement": "Whatever a caller does to the path through the mutable reference GetPath() returns, at any point of the call history, constructing the generator succeeds, throws out_of_range or is undefined exactly as the sizes of the guess lists, interval counts and waypoints and the presence of a drivetrain say; when it succeeds the generated problem asks exactly for what the path in its current state asks for. Adding a constraint to an existing waypoint, a drivetrain or a callback that way is the same as the corresponding call. Clearing the waypoints and building anew makes generation throw, because the old interval counts stay.", "quantifier": "all histories of calls and arbitrary edits of the path, exceptions caught, asserts on or off; all later states of the builder", "why_tests_cant": "An edit is an arbitrary function on paths; the repository has no test that edits through GetPath(), and the trap needs clear-and-rebuild with at least two waypoints.", "anchors": ["src/path/SwervePathBuilder.cpp:19-21", "src/path/SwervePathBuilder.cpp:201-213", "include/trajopt/path/SwervePathBuilder.hpp:29-34", "src/SwerveTrajectoryGenerator.cpp:40-272"]}
{"id": "C78", "title": "A fastest trajectory exists", "statement": "If a path can be driven at all, prescribes a pose at some waypoint and the robot has two modules at different places and non-zero mass and inertia, then some trajectory drives it in the least possible time, and some assignment of the decision variables satisfies the generated problem with the least possible value of its objective. Adding constraints never lowers that least time. Without modules nothing bounds the speed: every time can be undercut and the problem has no solution at its infimum.", "quantifier": "all builders, robots and paths of any size; all trajectories", "why_tests_cant": "Existence of a minimum over a continuum of trajectories; a test sees one local solution.", "anchors": ["src/SwerveTrajectoryGenerator.cpp:81-270", "src/SwerveTrajectoryGenerator.cpp:134-145"]}
{"id": "C79", "title": "Enough control intervals make a path drivable", "statement": "Let a robot have wheels with some speed and some torque, not all at one place, let a pose be wanted at each waypoint, and let smooth curves and turns join the poses. A path is drivable if each of its segments has enough control intervals, its waypoint constraints allow stopping at the pose and its segment constraints tolerate slow motion along the curve; the robot can even stop at each waypoint. If the robot manages speeds and accelerations up to d and control intervals of t are brief, curves with derivatives of at most L that change by at most M per unit need N intervals with 2L <= dNt and 6L + 8M <= d(Nt)^2 (for straight lines of length L, M = 0). In particular every list of poses can be driven through, and then there is a fastest way.", "quantifier": "all robots, all numbers of waypoints, all poses, all twice continuously differentiable curves between them, all builders with such constraints", "why_tests_cant": "Infeasibility reported by the solver cannot be told apart from a solver failure; that a problem of every size has a solution needs a construction of one.", "anchors": ["src/SwerveTrajectoryGenerator.cpp:81-270", "src/SwerveTrajectoryGenerator.cpp:146-174"]}
{"id": "C80", "title": "The problem does not depend on the choice of units", "statement": "Measuring lengths, times and masses of a path and its robot in other units, in every call of the history, gives the same feasible trajectories measured in those units, and the fastest one stays the fastest with the same duration.", "quantifier": "all call histories, robots, unit factors and trajectories", "why_tests_cant": "Needs all scale factors and all trajectories; the violation (distances from lines) only shows when a distance is active.", "anchors": ["src/SwerveTrajectoryGenerator.cpp:81-270", "include/trajopt/constraint/detail/LinePointDistance.hpp:16-40", "include/trajopt/constraint/LinePointConstraint.hpp:55-66", "include/trajopt/constraint/PointLineConstraint.hpp:55-64"]}
{"id": "C81", "title": "The path after any history of calls", "statement": "If in a history of builder calls every index is below 2^63, every segment call has a first and a later last waypoint, and every obstacle goes with the bumpers registered before it, then no call throws, and the path (waypoints, what is required where, guesses, control interval counts, drivetrain, callbacks, bumpers) is what the calls say one after the other.", "quantifier": "all histories of builder calls in order, all scalar types, asserts compiled in or out", "why_tests_cant": "Histories are unbounded and every call can interact with everything recorded before; tests fix a few histories.", "anchors": ["src/path/SwervePathBuilder.cpp:23-213", "include/trajopt/path/SwervePathBuilder.hpp:41-182"]}
{"id": "C82", "title": "The programs that come with the library build drivable paths", "statement": "Each C++ example, the Rust example and the obstacle test build a path without exceptions, a problem is generated for it, and a trajectory that solves it (even a fastest one) exists.", "quantifier": "all trajectories (for existence and for non-existence), asserts compiled in or out; for the test, all drivetrains it could have set", "why_tests_cant": "A solver that finds nothing does not show that there is nothing: the Rust example and the skipped test are infeasible at their first pose, which only a proof over all trajectories shows.", "anchors": ["examples/Swerve/src/Main.cpp:16-173", "examples/swerve.rs:3-51", "test/src/ObstacleTest.cpp:9-39"]}
{"id": "C83", "title": "Every waypoint is visited", "statement": "On every solution of a generated problem, each waypoint of the path has a sample of its own, in the order of the waypoints, at which everything required there holds.", "quantifier": "all call histories, drivetrains and trajectories", "why_tests_cant": "The generator silently takes the number of waypoints from the interval counts; no test passes fewer counts than segments, or a count of zero.", "anchors": ["src/SwerveTrajectoryGenerator.cpp:63-66", "src/SwerveTrajectoryGenerator.cpp:226-245", "include/trajopt/util/TrajoptUtil.hpp"]}
{"id": "C84", "title": "Start values obey the equations of motion", "statement": "The values the solver starts from satisfy the equations that link positions, velocities and accelerations of successive samples by the time step.", "quantifier": "all call histories and drivetrains", "why_tests_cant": "The solver corrects its start values, so that no test sees them; the mismatch depends on the interval counts of all segments.", "anchors": ["src/SwerveTrajectoryGenerator.cpp:142", "src/SwerveTrajectoryGenerator.cpp:313-341", "include/trajopt/util/GenerateLinearInitialGuess.hpp:40-42"]}
{"id": "C85", "title": "The fastest way from standstill to standstill is full throttle, then full brake", "statement": "In a segment of N control intervals of length dt a robot that stands at both ends gets no further than top acceleration times dt^2 times floor(N^2/4), hence needs at least twice the square root of distance over top acceleration. Between two poses of equal heading a robot with equal wheels needs exactly N sqrt(D/(A floor(N^2/4))) if its wheels can roll fast enough, and its velocities are then those of full throttle and full brake and no others. For the first example program that is 3/sqrt(10) seconds.", "quantifier": "all call histories, drivetrains, interval counts and trajectories", "why_tests_cant": "Optimality is a statement about all trajectories; a test can only compare a solver's result with itself.", "anchors": ["src/SwerveTrajectoryGenerator.cpp:133-174", "src/SwerveTrajectoryGenerator.cpp:176-224", "examples/Swerve/src/Main.cpp:28-41"]}
{"id": "C86", "title": "A throwing callback ends its own generation and nothing else", "statement": "An exception leaves Generate exactly if one of its progress callbacks throws. Nothing else changes then: no other generation, not the cancellation flag, not the rate limit, not the generator, on which Generate can be called again as if for the first time. The callbacks of the round behind the one that threw are not called; every other round calls all registered callbacks in order.", "quantifier": "all schedules of any number of threads", "why_tests_cant": "Interleavings and exception points are unbounded; no test throws from a callback.", "anchors": ["src/SwerveTrajectoryGenerator.cpp:45-62", "src/SwerveTrajectoryGenerator.cpp:274-294"]}
{"id": "C87", "title": "A generator reports its own progress to its own callbacks", "statement": "Whatever generators a program constructs and destroys, copies, moves and assigns, each existing generator calls the callbacks of the path it was constructed from, with its own solution and its own handle.", "quantifier": "all sequences of operations on any number of generator objects", "why_tests_cant": "Dangling captures often go unnoticed at run time; the tests never copy a generator.", "anchors": ["include/trajopt/SwerveTrajectoryGenerator.hpp:24-78", "src/SwerveTrajectoryGenerator.cpp:45-62", "src/SwerveTrajectoryGenerator.cpp:277-281"]}
{"id": "C88", "title": "Infinities and NaN in the input", "statement": "For any numbers, infinities and NaN in the path's constraints and in the drivetrain, finite values of the decision variables satisfy all generated constraints exactly if they encode a trajectory obeying both: infinite limits on speed, acceleration and torque are no limits, infinite poses, headings, distances, masses and module positions make the problem unsatisfiable, points at infinity are always far enough away. NaN in any constraint that is used or in the drivetrain makes every problem unsatisfiable, whatever the values of the variables; constructors that check their argument stop at it when asserts are compiled in. With finite numbers the meaning is the real one. An infinite maximum speed of a wheel is not the absence of a limit: it makes every path of at least one segment unsatisfiable. A wheel radius of zero lifts the limit on the force instead of forbidding it.", "quantifier": "all reachable builders, all constants in the extended reals with NaN, all assignments", "why_tests_cant": "No test uses a special value; the combinations are unbounded and the result is a solver status.", "anchors": ["src/SwerveTrajectoryGenerator.cpp:108-129", "src/SwerveTrajectoryGenerator.cpp:202-218", "include/trajopt/constraint"]}
{"id": "C89", "title": "Momentum and energy balance", "statement": "Over any stretch of a feasible trajectory the module forces summed over time equal the change of momentum, and their torques the change of angular momentum. In each control interval the work of the module forces equals the gain in kinetic energy plus the loss of the implicit Euler step, which is never negative; so the robot gains no more energy than its wheels' work, and with unit headings no more than the sum of the wheels' greatest force times greatest speed, times the time that passed.", "quantifier": "all reachable builders, all feasible trajectories, all stretches of samples", "why_tests_cant": "A balance over every feasible trajectory of every path; no test looks at forces.", "anchors": ["src/SwerveTrajectoryGenerator.cpp:147-224"]}
{"id": "C90", "title": "A better drivetrain is never worse", "statement": "Every path that a robot can drive can also be driven by a robot of the same shape with more torque, less mass and moment of inertia (in proportion) or faster wheels, in no more time.", "quantifier": "all reachable builders, all pairs of comparable drivetrains, all feasible trajectories", "why_tests_cant": "Compares the solution sets of two problems for all paths.", "anchors": ["src/SwerveTrajectoryGenerator.cpp:108-131", "src/SwerveTrajectoryGenerator.cpp:202-223"]}
{"id": "C91", "title": "The robot's axes are a matter of convention", "statement": "Describing the robot in axes turned by any angle (modules, bumpers and other robot points get the coordinates they have in the new axes, headings are counted from the new axes) leaves the feasible trajectories of every path the same, as long as no constraint speaks of the robot's front.", "quantifier": "all histories of builder calls, all drivetrains, all angles, all trajectories", "why_tests_cant": "Compares the solution sets of two problems for all paths and angles; tests use one robot in one set of axes.", "anchors": ["src/SwerveTrajectoryGenerator.cpp:20-45", "src/SwerveTrajectoryGenerator.cpp:108-131", "src/SwerveTrajectoryGenerator.cpp:195-224"]}
{"id": "C92", "title": "No data races", "statement": "However many threads call Generate (on generators of their own) and cancel_all, no two conflicting accesses to shared memory are unordered: the process has no data race, hence no undefined behaviour of that kind.", "quantifier": "all sets of generators, all schedules of all threads, all orderings added by the user's code", "why_tests_cant": "Races depend on interleavings and memory order; the tests run one generator on one thread.", "anchors": ["src/SwerveTrajectoryGenerator.cpp:45-62", "src/SwerveTrajectoryGenerator.cpp:274-285", "src/util/Cancellation.cpp:7-10", "src/RustFFI.cpp:248-250"]}
{"id": "C93", "title": "Finite programs stay finite", "statement": "If all numbers a program passes to the builder are finite, arithmetic with infinities and NaN gives what real arithmetic gives: calls have the same outcomes, the guess is finite, the problem has the same solutions, and solving starts from finite values.", "quantifier": "all programs with finite arguments, asserts compiled in or out, all drivetrains with wheels of non-zero radius", "why_tests_cant": "Infinities and NaN enter through divisions by counts and guessed time steps, which differ from program to program.", "anchors": ["src/SwerveTrajectoryGenerator.cpp:134-143", "src/SwerveTrajectoryGenerator.cpp:296-342", "include/trajopt/util/TrajoptUtil.hpp:34-60", "include/trajopt/util/GenerateLinearInitialGuess.hpp:18-117"]}
{"id": "C94", "title": "More control intervals never hurt", "statement": "Giving a segment more control intervals never makes a drivable path undrivable, nor its fastest trajectory slower.", "quantifier": "all paths, drivetrains and numbers of control intervals", "why_tests_cant": "Which numbers of control intervals are worse depends on their parity and on where the samples fall; a test tries one or two numbers.", "anchors": ["src/SwerveTrajectoryGenerator.cpp:36-60", "src/SwerveTrajectoryGenerator.cpp:134-185", "include/trajopt/path/SwervePathBuilder.hpp:209-222"]}
{"id": "C95", "title": "What can be driven can be driven backwards", "statement": "If a path can be driven from standstill to standstill, the path with its waypoints and segments in reverse order can be driven too, in the same time.", "quantifier": "all paths, drivetrains and trajectories", "why_tests_cant": "Implicit Euler treats the two ends of an interval differently; whether that matters depends on counts, waypoints and motor strength together.", "anchors": ["src/SwerveTrajectoryGenerator.cpp:146-185", "src/SwerveTrajectoryGenerator.cpp:187-232"]}
{"id": "C96", "title": "Programs with IEEE doubles", "statement": "With doubles as the machine has them (rounding, overflow, infinities, signed zeros, NaN), a program that passes only finite numbers leaves only finite numbers in constraints, start values and trajectories, and what its constraints admit obeys path and drivetrain up to rounding.", "quantifier": "all programs (any calls in any order) whose numbers are at most 2^250 and whose wheel radii are at least 2^-250; all other finite numbers refuted", "why_tests_cant": "Overflow and signed zeros appear only for numbers and operations tests do not combine; the claim is about every program below the bound.", "anchors": ["include/trajopt/util/TrajoptUtil.hpp:34-60", "src/SwerveTrajectoryGenerator.cpp:187-232", "include/trajopt/trajectory/HolonomicTrajectory.hpp:38-50"]}
{"id": "C97", "title": "Robot and obstacles stay apart between samples", "statement": "If keep-outs between bumpers and an obstacle (or between a robot point and a field point) are required along a segment, robot and obstacle are apart during the whole segment and not only at its samples.", "quantifier": "all programs, drivetrains, obstacles, solutions and moments between samples; moves per control interval below twice the clearance, longer ones refuted", "why_tests_cant": "Tests look at the samples the solver returns; what happens between them, for all shapes and step lengths, is a geometric statement about every solution.", "anchors": ["src/path/SwervePathBuilder.cpp:119-183", "src/SwerveTrajectoryGenerator.cpp:108-131", "include/trajopt/constraint/detail/LinePointDistance.hpp:16-36"]}
{"id": "C98", "title": "What is outside the bumpers stays outside", "statement": "If robot and obstacle, insides included, are disjoint at the start of a segment along which keep-outs between them are required, they are disjoint at all its samples.", "quantifier": "all programs, drivetrains, obstacles, solutions and samples; moves per control interval below twice the clearance, longer ones refuted", "why_tests_cant": "Keep-outs only speak of outlines; that insides stay disjoint depends on step length and topology, for every shape.", "anchors": ["src/path/SwervePathBuilder.cpp:119-183", "src/SwerveTrajectoryGenerator.cpp:108-131"]}
{"id": "C99", "title": "Driving the sampled accelerations leads to the sampled states", "statement": "A robot that starts at the first sample and has the acceleration and angular acceleration of sample n during the control interval before sample n has, at the time of each sample, the velocity, angular velocity, position and heading of the sample.", "quantifier": "all programs, drivetrains, solutions and motions in continuous time; positions refuted, exact difference proved", "why_tests_cant": "Tests compare samples with each other; that their accelerations lead a real robot elsewhere is a statement about differential equations for every solution.", "anchors": ["src/SwerveTrajectoryGenerator.cpp:108-131", "src/SwerveTrajectoryGenerator.cpp:145-174"]}
{"id": "C100", "title": "A constraint of the path can be applied again", "statement": "Calling WptConstraint or SgmtConstraint with a reference to a constraint that is already in the path records a copy of it, as if it had been passed as a temporary.", "quantifier": "all growth policies of std::vector, histories, references into the path and indices below 2^63; refuted for SgmtConstraint, exact condition proved", "why_tests_cant": "Whether the reference dangles depends on the capacity of a vector and the growth policy of the standard library; a dangling read often returns the old value.", "anchors": ["include/trajopt/path/SwervePathBuilder.hpp:124-147", "src/path/SwervePathBuilder.cpp:19-21", "include/trajopt/path/Path.hpp:21-27"]}
{"id": "C101", "title": "expected<void, E> behaves like success or an error", "statement": "Each operation on objects of type expected<void, E> has the effect it has on values that are either success or an error; no operation is undefined, no error is destroyed twice or never, and an exception leaves every object a success if it was one and an error if it was one.", "quantifier": "all error types (any combination of noexcept operations), programs, and points at which an operation of the error type throws", "why_tests_cant": "Lifetime errors in unions are invisible to tests that compare values, and the paths depend on which operation throws.", "anchors": ["include/trajopt/util/expected:651-725", "include/trajopt/util/expected:914-973", "include/trajopt/util/expected:985-1103", "include/trajopt/util/expected:1794-1822"]}
{"id": "C102", "title": "What every builder call does, in order or not", "statement": "Every call of the path builder, with any arguments, after any history of calls including ones that threw, leaves the path that a specification in terms of the path alone gives, and throws or asserts exactly when and what that specification says: indices from 2^63 on throw and change nothing, a segment whose last index is too large is followed as far as there are waypoints and then throws, a segment in the wrong order asserts or constrains one waypoint, an obstacle records constraints until the first that cannot be made.", "quantifier": "all histories of calls with arguments of type size_t, all obstacles and bumpers (any number of corners, any distances), with and without assertions", "why_tests_cant": "The state left behind by a call that throws is not looked at by any test, and depends on every index and corner count.", "anchors": ["src/path/SwervePathBuilder.cpp:27-56", "src/path/SwervePathBuilder.cpp:58-181", "src/path/SwervePathBuilder.cpp:201-219", "include/trajopt/path/SwervePathBuilder.hpp:117-147"]}
{"id": "C103", "title": "A path can also be driven more slowly", "statement": "A trajectory that solves a path can be driven k >= 1 times as slowly (velocities divided by k, accelerations and forces by k^2, times multiplied by k) and still solves it, and so a positive speed limit on some segments of a path only makes it slower.", "quantifier": "all reachable builders, robots, trajectories and factors k >= 1; refuted because of the cap on the time step, with the exact condition", "why_tests_cant": "Only the samples of a few paths are tested; that every constraint type is preserved by scaling the time, and that the cap on the time step is the only obstacle, is a statement about all trajectories.", "anchors": ["src/SwerveTrajectoryGenerator.cpp:108-131", "include/trajopt/constraint/LinearVelocityMaxMagnitudeConstraint.hpp"]}
{"id": "C104", "title": "A builder call that is refused memory can be repeated", "statement": "A builder call that ends in std::bad_alloc leaves the path as it was, so that it can be repeated when there is memory.", "quantifier": "all histories of calls and all patterns of refused requests for memory; refuted, with what survives every refusal", "why_tests_cant": "Tests do not run out of memory, and the harm is silent: the repeated call succeeds and a path without its last waypoint is generated.", "anchors": ["src/path/SwervePathBuilder.cpp:201-213", "src/path/SwervePathBuilder.cpp:27-52", "include/trajopt/path/SwervePathBuilder.hpp:124-147"]}
{"id": "C105", "title": "Doubles behave as IEEE 754 and C prescribe", "statement": "Every operation on doubles that the code uses returns the exact result rounded to the nearest binary64 number (ties to even, infinite beyond the format), with the sign, infinities and NaN that IEEE 754 and C prescribe; limits, distances and tolerances pass the constraints' assertions exactly if they are neither NaN nor below zero.", "quantifier": "all doubles, including signed zeros, infinities and NaN", "why_tests_cant": "There are 2^128 pairs of doubles; tests do not pass NaN or -0.0 to constraints. The properties about programs with doubles (C96) rest on these operations.", "anchors": ["include/trajopt/constraint/LinearVelocityMaxMagnitudeConstraint.hpp:27-30", "include/trajopt/util/TrajoptUtil.hpp", "include/trajopt/constraint/detail/LinePointDistance.hpp"]}
{"id": "C106", "title": "Turning takes the time the wheels' torque requires", "statement": "A trajectory that turns the robot along a segment, without angular velocity at both ends, takes at least the time that the wheels' greatest torque about the centre allows; for a robot with equal wheels on a circle the fastest turn on the spot speeds up with full twist for half of the control intervals and brakes for the other half.", "quantifier": "all drivetrains, angles, control interval counts, trajectories that the generated program admits", "why_tests_cant": "Tests check single numeric solutions and not that no faster solution exists; the half turn that takes no time is not among the tested paths.", "anchors": ["src/SwerveTrajectoryGenerator.cpp", "include/trajopt/constraint/PoseEqualityConstraint.hpp"]}
{"id": "C107", "title": "What was saved is loaded as it was", "statement": "A drivetrain, module, pose, sample or trajectory that the Rust interface serialises to JSON deserialises to the same value. A document is accepted exactly if it is an object that has each field once (in any order, other entries are skipped) or an array of just the fields, with values of the right type. A document that is rejected is reported for something that is wrong with it: a missing field that is missing, a repeated one that is repeated, the actual length of an array that is not the number of fields, or a value of the wrong type.", "quantifier": "all values of the five structs, all JSON documents", "why_tests_cant": "There are no tests of serialisation; infinities and NaN, missing, repeated and unknown entries are rarely tried.", "anchors": ["src/lib.rs:3-42", "Cargo.toml"]}
{"id": "C108", "title": "Looser limits never hurt", "statement": "If in a program of builder calls limits are loosened (speed and acceleration limits raised, heading tolerances widened, keep-out and safety distances reduced), the calls throw the same, every trajectory that could be driven still can be, and the fastest takes no longer.", "quantifier": "all histories of builder calls, exceptions caught, all limits, all trajectories", "why_tests_cant": "Needs every program and every way of loosening; the exception (tolerances beyond half a turn) is not tried by tests.", "anchors": ["include/trajopt/constraint/PointAtConstraint.hpp", "include/trajopt/path/SwervePathBuilder.hpp", "src/path/SwervePathBuilder.cpp"]}
{"id": "C109", "title": "Equality constraints are independent", "statement": "At every feasible assignment the gradients of the equality constraints of the generated problem are linearly independent: their values can be changed independently of one another by moving the decision variables.", "quantifier": "all reachable builders, all feasible assignments", "why_tests_cant": "Solvers converge more slowly or not at all when this fails, for no visible reason; tests only see that some problems are solved.", "anchors": ["include/trajopt/geometry/Rotation2.hpp", "src/SwerveTrajectoryGenerator.cpp", "include/trajopt/constraint/LinearVelocityDirectionConstraint.hpp", "include/trajopt/constraint/PoseEqualityConstraint.hpp"]}
{"id": "C110", "title": "The problem is smooth", "statement": "At every feasible assignment the cost and the functions of all constraints of the generated problem are twice continuously differentiable, as Newton's method presumes.", "quantifier": "all reachable builders, all feasible assignments", "why_tests_cant": "The corners form thin sets that sampled solves rarely hit exactly.", "anchors": ["include/trajopt/constraint/PointAtConstraint.hpp", "include/trajopt/constraint/detail/LinePointDistance.hpp", "include/trajopt/constraint/PointLineConstraint.hpp", "include/trajopt/constraint/LinePointConstraint.hpp", "src/SwerveTrajectoryGenerator.cpp"]}
{"id": "C111", "title": "Constraints are local in time", "statement": "Every constraint of the generated problem involves only the time step of one segment, or only variables of one sample, or only variables of two consecutive samples of a segment and that segment's time step; every decision variable belongs to exactly one sample or exactly one segment; constraints refer only to decision variables of the problem, the cost exactly to the time steps; and if the path has a control interval, every decision variable is involved in some constraint.", "quantifier": "all reachable builders that the generator accepts, all constraints, all variables; any number type", "why_tests_cant": "An index off by one still gives a problem that solves, with one sample unconstrained or coupled to the wrong neighbour.", "anchors": ["src/SwerveTrajectoryGenerator.cpp"]}
{"id": "C112", "title": "The size of the problem", "statement": "The generated problem has 10 + 2m variables for every sample of a robot with m modules and one for every segment; its equations are eight for every control interval, three for every sample and those of the path's constraints, each imposed once at its waypoint and once at every sample of its segment; its inequalities are one and one per module for every segment, two per module for every sample, and those of the path's constraints. Hence it has samples*(2m-1) + 8 + segments more unknowns than equations, less the equations of the path's constraints, and repeating a call can make the equations outnumber the unknowns without changing the solutions.", "quantifier": "all reachable builders that the generator accepts; any number type", "why_tests_cant": "Constraints imposed twice or left out do not show in a solve that succeeds; the count must hold for every number of segments, intervals, modules and constraints.", "anchors": ["src/SwerveTrajectoryGenerator.cpp"]}
{"id": "C113", "title": "Fastest trajectories reach a limit", "statement": "A fastest trajectory that takes any time has a sample at which a wheel turns as fast as it can, a module pushes as hard as it can, or a limit on velocity, acceleration or angular velocity imposed there is reached. The same holds on every stretch between two stops at different places.", "quantifier": "for every reachable builder, drivetrain, fastest trajectory and pair of stops, over the real numbers", "why_tests_cant": "Running the optimizer shows single trajectories at tolerances; that no feasible trajectory strictly within all limits can be fastest is a statement about all of them.", "anchors": ["src/SwerveTrajectoryGenerator.cpp"]}
{"id": "C114", "title": "Dividing a segment never hurts", "statement": "A waypoint without constraints of its own can be put anywhere on a segment, its control intervals and constraints being shared out between the two parts. What drives the path drives the divided path in the same time; what drives the divided path with equal time steps in both parts drives the path. The fastest trajectory never becomes slower, and sometimes becomes faster.", "quantifier": "all reachable builders that the generator accepts, all segments and places on them; real arithmetic", "why_tests_cant": "It compares the optima of two problems for every path; solves of single paths within a tolerance cannot show that none becomes slower.", "anchors": ["src/SwerveTrajectoryGenerator.cpp", "include/trajopt/path/SwervePathBuilder.hpp"]}
{"id": "C115", "title": "Guesses decide where the solver starts and nothing else", "statement": "Two histories of builder calls that differ only in guessed poses (WptInitialGuessPoint, SgmtInitialGuessPoints, the heading guess of TranslationWpt) end every call the same way and leave the same path, bumpers and control interval counts. The generators made of them fail alike, or state the same problem with the same variables, constraints and cost, and differ at most in the start values; the same trajectories are feasible and fastest.", "quantifier": "all histories of builder calls, in order or not, with any poses and any number of guess points; any number type", "why_tests_cant": "A solver run from another start may end elsewhere for many reasons; that the problem itself never depends on a guess is a statement about all histories.", "anchors": ["include/trajopt/path/SwervePathBuilder.hpp", "src/path/SwervePathBuilder.cpp", "src/SwerveTrajectoryGenerator.cpp"]}
{"id": "C116", "title": "Solutions within a small tolerance are close to solutions", "statement": "The solver accepts assignments that violate constraints by its tolerance. For every path with a prescribed pose and every robot whose modules are not all in one place, and however close it is to be, there is a tolerance such that every trajectory that violates no generated constraint by more than that is that close, in every state, force and time step, to a trajectory that violates none. So a path that cannot be driven has no trajectory up to that tolerance either, and none is faster than the fastest by more than a given time. The tolerance depends on the path: none serves all.", "quantifier": "all reachable builders, drivetrains, trajectories and distances", "why_tests_cant": "existence of a tolerance for all trajectories of all paths", "anchors": ["src/SwerveTrajectoryGenerator.cpp"]}
{"id": "C117", "title": "Between two solutions that turn alike lie others", "statement": "If two trajectories of a path have the same headings, angular velocities and time steps, so has every trajectory between them, and it is a trajectory of the path. The forces alone can always be mixed; they are not determined by the states if two modules in different places have some force left, but exactly one choice of forces is the least effort at every sample.", "quantifier": "all reachable builders, drivetrains and pairs of trajectories", "why_tests_cant": "a statement about all pairs of solutions of all problems", "anchors": ["src/SwerveTrajectoryGenerator.cpp"]}
{"id": "C118", "title": "Small changes of path and robot change little", "statement": "If the numbers of a path's constraints and of the robot change by little, then what can be driven, and the shortest time it takes, changes by little: trajectories of the changed path are close to trajectories of the path and take not much less time, and conversely; and a path that cannot be driven cannot be driven after small changes.", "quantifier": "all reachable builders, drivetrains, trajectories and all sufficiently small changes", "why_tests_cant": "a limit over uncountably many inputs", "anchors": ["src/SwerveTrajectoryGenerator.cpp", "src/path/SwervePathBuilder.cpp"]}
{"id": "C119", "title": "A rounding error in a module's position decides how far the robot gets", "statement": "With IEEE doubles, if neighbouring modules differ along an axis by any nonzero amount, be it the last bit of a double, then in every solution of the generated problem the robot is after n samples at most 4 n times that amount away from where it started. So a robot whose front left module is at 0.1 + 0.2 and whose front right module is at 0.3 cannot drive a metre with any number of control intervals up to 2^50, while the same robot with both at 0.3 can, with any number from two on.", "quantifier": "for all programs with moderate numbers that start at a pose, all robots with two modules opposite each other, all neighbouring modules that differ along an axis, all assignments satisfying the generated constraints, all samples", "why_tests_cant": "tests use literals for the positions of modules, for which offsets are exactly zero or large; a sum that rounds differently makes the problem infeasible, and a solver that fails looks like a hard path", "anchors": ["src/SwerveTrajectoryGenerator.cpp"]}
{"id": "C120", "title": "The problem is differentiable where solving starts", "statement": "At the values that the initial guess gives to the decision variables, the cost and both sides of every constraint of the generated problem have values (no division by 0), unless one of the path's line-segment constraints has a segment without length; and cost and constraints are differentiable there, so that the solver can take its first step. Values hold. Differentiability holds unless the guess puts the robot into a corner of a constraint; it is false for a robot that has to face a point that its guessed straight way passes through at a sample: driving two metres while facing the middle of the way, it holds exactly for odd numbers of control intervals.", "quantifier": "all reachable builders with positive counts and a proper first heading; for the counterexample all numbers of control intervals below 2^63", "why_tests_cant": "whether the guess meets the point depends on every coordinate and count, and the default count of 40 is only one of them; the derivative's failure is at a single point", "anchors": ["src/SwerveTrajectoryGenerator.cpp", "src/path/SwervePathBuilder.cpp", "include/trajopt/constraint/PointAtConstraint.hpp"]}
{"id": "C121", "title": "The fastest trajectory is the only one", "statement": "A path has one fastest trajectory: the generator's result does not depend on the solver's choice between equally good ones. This holds of the motion (time step, positions, velocities, accelerations from the second sample on, and for even numbers of control intervals also wheel forces) of a robot with equal wheels that drives from standstill to standstill. It is false of everything else: the first sample's forces and accelerations move nothing and can always be changed; a robot that looks the same after half a turn can be turned about at every set of samples at which no constraint names a direction, so that the first example program has a fastest trajectory for every subset of its 41 samples; and past an obstacle the robot can pass on either side.", "quantifier": "all reachable builders, robots and fastest trajectories; all sets of samples; all numbers of control intervals of at least 2 for the positive part", "why_tests_cant": "a test sees the one trajectory that the solver happens to find, not the others that are as good", "anchors": ["src/SwerveTrajectoryGenerator.cpp", "src/path/SwervePathBuilder.cpp"]}
{"id": "C122", "title": "A path that can be driven can be driven with room to spare", "statement": "Whenever the generated problem has a solution it has one that meets every inequality strictly (an inside, which the interior-point solver that the code calls wanders through). Limits on speed, acceleration, wheel speed and wheel force never prevent it: a solution that leaves room in place and heading, with time steps neither 0 nor at their cap, leaves room everywhere when driven a little slower. It is false otherwise: facing a point with tolerance 0 leaves no room on any path with a pose; a wheel without speed or torque leaves none; and the straight path between two poses can be driven with room exactly if it is shorter than the number of control intervals times the least gap between modules, while it can be driven at exactly that length too.", "quantifier": "all reachable builders, robots and trajectories; for the length: all robots with centred wheels of equal top speed, all straight paths and numbers of control intervals", "why_tests_cant": "Whether a problem has an inside is a statement about all trajectories; a test sees whether the solver converged on one path.", "anchors": ["src/SwerveTrajectoryGenerator.cpp", "include/trajopt/constraint/PointAtConstraint.hpp", "include/trajopt/constraint/AngularVelocityMaxMagnitudeConstraint.hpp"]}
{"id": "C123", "title": "A generation that runs out of memory disturbs no other", "statement": "When Generate is refused memory, in the solver, for the solution or message it returns, for the solution its progress callbacks get, or for converting that solution for a Rust callback, it ends with an exception and nothing else happens: no other generation, not the cancellation flag, no callback. Whatever allocations are refused in a process with any number of generators, every generation that was not refused memory goes through what it could have gone through with enough memory, with the same calls of its callbacks; there is no undefined behaviour; and the failed generation can be repeated and then returns what the solver finds. The one exception is the time of the last round of callbacks, which is set before memory is asked for: a failed report uses up its sixtieth of a second, and another generation's report is dropped.", "quantifier": "all processes with any number of generators, all schedules, all refusals of memory at any allocation", "why_tests_cant": "Refused allocations are not tested at all, and their effect on other generations depends on the interleaving.", "anchors": ["src/SwerveTrajectoryGenerator.cpp", "src/RustFFI.cpp"]}
{"id": "C124", "title": "At a fastest trajectory the conditions that the solver looks for hold", "statement": "The solver does not compare trajectories; it looks for decision variables at which the gradient of the total time is balanced by multiples of the gradients of the active constraints, with multipliers of the right sign (the conditions of Karush, Kuhn and Tucker). At every fastest trajectory of a path such multipliers exist, and unless no time is taken some of them belong to limits.", "quantifier": "all paths with a prescribed start, stops or places to pass at later waypoints and any limits, all drivetrains, all fastest trajectories", "why_tests_cant": "Tests see whether the solver succeeds on a few paths, not whether the point it looks for exists.", "anchors": ["src/SwerveTrajectoryGenerator.cpp", "include/trajopt/constraint/LinearVelocityMaxMagnitudeConstraint.hpp"]}
{"id": "C125", "title": "Limits answer where they are reached", "statement": "Solvers stay inside limits by following the limits' gradients. At every solution, each inequality that is reached with equality has a gradient other than zero: some movement of the variables changes the difference of its two sides at a rate other than zero. This holds for wheel speeds and forces, time steps, velocity, acceleration, facing and keep-out constraints, also at the corners of keep-outs, provided that wheels have speed and torque, distances to be kept are not zero and the robot is not on a point it has to face. Without speed or torque a limit is always reached and never answers; the same where robot and obstacle touch and the distance to be kept is zero.", "quantifier": "all builders, all drivetrains, all solutions of the generated problem", "why_tests_cant": "A gradient that vanishes only where a limit is reached shows as slow or failing convergence on some paths, not as a wrong result of any function.", "anchors": ["src/SwerveTrajectoryGenerator.cpp", "include/trajopt/constraint/PointPointConstraint.hpp", "include/trajopt/constraint/detail/LinePointDistance.hpp"]}
{"id": "C126", "title": "Generate can be called again", "statement": "Calling Generate again on the same generator poses the same problem: path, variables, constraints, cost, callbacks and handle are those with which the generator was made, however earlier generations ended (solution, failure, cancellation, exception). The call gives the result that the first call gave.", "quantifier": "all processes, all interleavings of generations on any number of generators, all solvers", "why_tests_cant": "Start values are set in the constructor only, so that what a second call does depends on where the first one stopped; that shows only for particular paths and moments of cancellation.", "anchors": ["src/SwerveTrajectoryGenerator.cpp", "include/trajopt/SwerveTrajectoryGenerator.hpp"]}
{"id": "C127", "title": "Watching a generation does not change it", "statement": "Callbacks registered with AddIntermediateCallback, at any point among the other calls and in any number, and the handle given to the generator, do not change what is generated: all other calls record the same path and end the same way, and the constructor of the generator fails alike or makes the same variables, start values, constraints and cost. What callbacks change in the solutions that they are given reaches the callbacks called after them in the same round and nothing else.", "quantifier": "all sequences of calls and all ways to put registrations among them, all handles, either build mode; all processes, all interleavings and all edits", "why_tests_cant": "Callbacks are kept in the same object as the constraints; that one never changes the other is about all sequences of calls and every place for a registration.", "anchors": ["src/path/SwervePathBuilder.cpp", "src/SwerveTrajectoryGenerator.cpp", "include/trajopt/path/Path.hpp"]}
{"id": "C128", "title": "Headings count up to full turns", "statement": "Full turns added to the headings of pose waypoints, to heading guesses and to the angles of pose and velocity direction constraints change nothing: all calls end the same way, and the generator has the same variables, start values, constraints and cost, or fails alike; the same trajectories drive the path and are fastest.", "quantifier": "all sequences of calls and all numbers of full turns at each angle (real numbers); in every number type, all angles with the same cosine and the same sine", "why_tests_cant": "That no place in builder, initial guess and constraints looks at an angle other than through its cosine and sine is about all paths and all angles.", "anchors": ["include/trajopt/geometry/Rotation2.hpp", "src/path/SwervePathBuilder.cpp", "include/trajopt/util/GenerateLinearInitialGuess.hpp", "include/trajopt/constraint/PoseEqualityConstraint.hpp", "include/trajopt/constraint/LinearVelocityDirectionConstraint.hpp"]}
{"id": "C129", "title": "A trajectory can be given back as the guess", "statement": "If the guess for the first waypoint is the pose at the first sample of a trajectory, and the guess points of each segment are the poses at its samples, then the solver starts at that trajectory: positions, headings, velocities, forces and time steps.", "quantifier": "all reachable builders, all trajectories with unit headings, all control interval counts greater than zero", "why_tests_cant": "How many samples lie between guess points depends on counts and numbers of points; that each point meets its own sample is about all counts and segments.", "anchors": ["include/trajopt/util/GenerateLinearInitialGuess.hpp", "src/SwerveTrajectoryGenerator.cpp", "src/path/SwervePathBuilder.cpp"]}
