import Verif.Model.Runtime
import Verif.Model.Trajectory

/-!
# The Rust interface (/repo/src/RustFFI.cpp, /repo/src/lib.rs)

Each method of the Rust `SwervePathBuilder` (lib.rs:175-427) only forwards to the C++ wrapper of the
same name, which is what is modelled here.  An exception that leaves a wrapper ends the process,
unless the bridge declares the function to return a `Result` (lib.rs:154-158), when exceptions
derived from `std::exception` become `Err`.  That is cxx's behaviour, not code in /repo.
-/

namespace Trajopt

variable {D : Type}

/-- Rust `SwerveModule` (lib.rs:4-10). -/
structure RustModule (D : Type) where
  x : D
  y : D
  wheel_radius : D
  wheel_max_angular_velocity : D
  wheel_max_torque : D
  deriving Repr, DecidableEq

/-- Rust `SwerveDrivetrain` (lib.rs:13-17). -/
structure RustDrivetrain (D : Type) where
  mass : D
  moi : D
  modules : List (RustModule D)
  deriving Repr, DecidableEq

/-- Rust `Pose2d` (lib.rs:20-24). -/
structure RustPose (D : Type) where
  x : D
  y : D
  heading : D
  deriving Repr, DecidableEq

/-- Rust `HolonomicTrajectorySample` (lib.rs:27-37). -/
structure RustSample (D : Type) where
  timestamp : D
  x : D
  y : D
  heading : D
  velocity_x : D
  velocity_y : D
  angular_velocity : D
  module_forces_x : List D
  module_forces_y : List D
  deriving Repr, DecidableEq

/-- The methods of the Rust `SwervePathBuilder` that change it (lib.rs:182-389, 424-426).  A
callback is a plain `fn`, named by a number. -/
inductive RustCall (D : Type) where
  | set_drivetrain (drivetrain : RustDrivetrain D)
  | set_bumpers (length width : D)
  | set_control_interval_counts (counts : List Nat)
  | pose_wpt (index : Nat) (x y heading : D)
  | translation_wpt (index : Nat) (x y heading_guess : D)
  | empty_wpt (index : Nat) (x_guess y_guess heading_guess : D)
  | sgmt_initial_guess_points (from_index : Nat) (guess_points : List (RustPose D))
  | wpt_linear_velocity_direction (index : Nat) (angle : D)
  | wpt_linear_velocity_max_magnitude (index : Nat) (magnitude : D)
  | wpt_angular_velocity_max_magnitude (index : Nat) (angular_velocity : D)
  | wpt_linear_acceleration_max_magnitude (index : Nat) (magnitude : D)
  | wpt_point_at (index : Nat) (field_point_x field_point_y heading_tolerance : D)
  | sgmt_linear_velocity_direction (from_index to_index : Nat) (angle : D)
  | sgmt_linear_velocity_max_magnitude (from_index to_index : Nat) (magnitude : D)
  | sgmt_angular_velocity_max_magnitude (from_index to_index : Nat) (angular_velocity : D)
  | sgmt_linear_acceleration_max_magnitude (from_index to_index : Nat) (magnitude : D)
  | sgmt_point_at (from_index to_index : Nat) (field_point_x field_point_y heading_tolerance : D)
  | sgmt_circle_obstacle (from_index to_index : Nat) (x y radius : D)
  | sgmt_polygon_obstacle (from_index to_index : Nat) (x y : List D) (radius : D)
  | add_progress_callback (callback : Nat)
  deriving Repr, DecidableEq

namespace Rust

/-- A loop that does `push_back(f(a))` for each `a` (RustFFI.cpp:27-33, 42-44, 76-79, 188-201). -/
def pushAll {α β : Type} (f : α → β) (l : List α) : List β := l.foldl (fun acc a => acc ++ [f a]) []

/-- The loop of `sgmt_polygon_obstacle` (RustFFI.cpp:172-174), `n` iterations left. -/
def pointsLoop (x y : List D) : (n i : Nat) → Res (List (Translation2 D))
  | 0, _ => .ok []
  | n + 1, i => do
    let a ← vat x i
    let b ← vat y i
    let rest ← pointsLoop x y n (i + 1)
    return ⟨a, b⟩ :: rest

/-- A temporary is created, then passed to a builder call. -/
def withTemp {α : Type} (r : Res α) (f : α → Builder D → Out D) (b : Builder D) : Out D :=
  match r with
  | .ok a => f a b
  | .error e => (b, some e)

/-- The wrapper functions (RustFFI.cpp, lines as noted). -/
def exec [Dbl D] (asserts : Bool) (c : RustCall D) (b : Builder D) : Out D :=
  match c with
  | .set_drivetrain d => -- 25-37
    (b.setDrivetrain ⟨d.mass, d.moi, pushAll (fun m => ⟨⟨m.x, m.y⟩, m.wheel_radius,
      m.wheel_max_angular_velocity, m.wheel_max_torque⟩) d.modules⟩, none)
  | .set_control_interval_counts counts => -- 39-47
    (b.setControlIntervalCounts (pushAll id counts), none)
  | .set_bumpers length width => -- 49-56
    let two : D := Num.lit 2
    (b.addBumpers { safetyDistance := Num.lit (1 / 100)
                    points := [⟨length / two, width / two⟩, ⟨-length / two, width / two⟩,
                      ⟨-length / two, -width / two⟩, ⟨length / two, -width / two⟩] }, none)
  | .pose_wpt index x y heading => b.poseWpt index x y heading -- 58-61
  | .translation_wpt index x y heading_guess => b.translationWpt index x y heading_guess -- 63-66
  | .empty_wpt index x_guess y_guess heading_guess => -- 68-71
    b.wptInitialGuessPoint index (.ofXYHeading x_guess y_guess heading_guess)
  | .sgmt_initial_guess_points from_index guess_points => -- 73-82
    b.sgmtInitialGuessPoints from_index
      (pushAll (fun p => .ofXYHeading p.x p.y p.heading) guess_points)
  | .wpt_linear_velocity_direction index angle => -- 84-88
    b.wptConstraint index (.mkLinearVelocityDirection angle)
  | .wpt_linear_velocity_max_magnitude index magnitude => -- 90-94
    withTemp (Constraint.mkLinearVelocityMaxMagnitude asserts magnitude) (wpt index) b
  | .wpt_angular_velocity_max_magnitude index angular_velocity => -- 96-100
    withTemp (Constraint.mkAngularVelocityMaxMagnitude asserts angular_velocity) (wpt index) b
  | .wpt_linear_acceleration_max_magnitude index magnitude => -- 102-106
    withTemp (Constraint.mkLinearAccelerationMaxMagnitude asserts magnitude) (wpt index) b
  | .wpt_point_at index field_point_x field_point_y heading_tolerance => -- 108-115
    withTemp (Constraint.mkPointAt asserts ⟨field_point_x, field_point_y⟩ heading_tolerance) (wpt index) b
  | .sgmt_linear_velocity_direction from_index to_index angle => -- 117-122
    b.sgmtConstraint asserts from_index to_index (.mkLinearVelocityDirection angle)
  | .sgmt_linear_velocity_max_magnitude from_index to_index magnitude => -- 124-130
    withTemp (Constraint.mkLinearVelocityMaxMagnitude asserts magnitude) (sgmt from_index to_index) b
  | .sgmt_angular_velocity_max_magnitude from_index to_index angular_velocity => -- 132-137
    withTemp (Constraint.mkAngularVelocityMaxMagnitude asserts angular_velocity)
      (sgmt from_index to_index) b
  | .sgmt_linear_acceleration_max_magnitude from_index to_index magnitude => -- 139-144
    withTemp (Constraint.mkLinearAccelerationMaxMagnitude asserts magnitude) (sgmt from_index to_index) b
  | .sgmt_point_at from_index to_index field_point_x field_point_y heading_tolerance => -- 146-154
    withTemp (Constraint.mkPointAt asserts ⟨field_point_x, field_point_y⟩ heading_tolerance)
      (sgmt from_index to_index) b
  | .sgmt_circle_obstacle from_index to_index x y radius => -- 156-160
    b.sgmtObstacle asserts from_index to_index ⟨radius, [⟨x, y⟩]⟩
  | .sgmt_polygon_obstacle from_index to_index x y radius => -- 162-179
    if x.length ≠ y.length then (b, none)
    else withTemp (pointsLoop x y x.length 0)
      (fun points b => b.sgmtObstacle asserts from_index to_index ⟨radius, points⟩) b
  | .add_progress_callback callback => (b.addIntermediateCallback callback, none) -- 218-242
where
  wpt (index : Nat) (c : Constraint D) (b : Builder D) : Out D := b.wptConstraint index c
  sgmt (i j : Nat) (c : Constraint D) (b : Builder D) : Out D := b.sgmtConstraint asserts i j c

/-- How a Rust process can end. -/
inductive Death where
  /-- `std::terminate` or `abort` -/
  | aborted
  /-- undefined behaviour -/
  | undefined
  deriving DecidableEq, Repr

/-- What becomes of a C++ fault in a function that is not declared to return a `Result`. -/
def Death.ofFault : Fault → Death
  | .outOfRange => .aborted
  | .assertFailed => .aborted
  | .ub => .undefined

/-- A history of calls. -/
def run [Dbl D] (asserts : Bool) : List (RustCall D) → Builder D → Except Death (Builder D)
  | [], b => .ok b
  | c :: cs, b =>
    match exec asserts c b with
    | (b', none) => run asserts cs b'
    | (_, some e) => .error (.ofFault e)

/-- `swerve_path_builder_new` (RustFFI.cpp:244-246).  `make_unique<T>()` value-initialises, and the
wrapper's constructor is defaulted (RustFFI.hpp:20), so `mass` and `moi` are zero rather than
indeterminate. -/
def new [Dbl D] : Builder D :=
  { (Builder.new : Builder D) with
    path := { (Builder.new : Builder D).path with
      drivetrain := some ⟨Num.lit 0, Num.lit 0, []⟩ } }

/-- Conversion of a sample (RustFFI.cpp:189-200, 226-237).  `std::copy` to a `back_inserter`. -/
def sample (s : TrajSample D) : RustSample D where
  timestamp := s.timestamp
  x := s.x
  y := s.y
  heading := s.heading
  velocity_x := s.velocityX
  velocity_y := s.velocityY
  angular_velocity := s.angularVelocity
  module_forces_x := pushAll id s.moduleForcesX
  module_forces_y := pushAll id s.moduleForcesY

/-- Conversion of a trajectory (RustFFI.cpp:185-203, 222-240). -/
def trajectory [Dbl D] (sol : SwerveSolution D) : Res (List (RustSample D)) :=
  match holonomicTrajectory sol with
  | .ok samples => .ok (pushAll sample samples)
  | .error f => .error f

/-- A fault in `generate`, which returns a `Result`; `what` is the exception's message. -/
def caught {α : Type} (what : String) : Fault → Except Death (Except String α)
  | .outOfRange => .ok (.error what)
  | .assertFailed => .error .aborted
  | .ub => .error .undefined

/-- `generate` (RustFFI.cpp:181-207, lib.rs:403-412) if the solver ends with `exit` and `values`. -/
def generate [Dbl D] (what : String) (toMessage : Exit → String) (b : Builder D) (handle : Int)
    (exit : Exit) (values : Nat → D) : Except Death (Except String (List (RustSample D))) :=
  match Generator.construct b handle with
  | .error f => caught what f
  | .ok g =>
    match (g.withValues values).conclude toMessage exit with
    | .error f => caught what f
    | .ok (.error e) => .ok (.error e)
    | .ok (.ok sol) =>
      match trajectory sol with
      | .error f => caught what f
      | .ok samples => .ok (.ok samples)

/-- What a Rust progress callback gets when the C++ one is called with `sol` and `handle`
(RustFFI.cpp:221-241).  The C++ solution is not changed. -/
def progress [Dbl D] (sol : SwerveSolution D) (handle : Int) : Res (List (RustSample D) × Int) :=
  match trajectory sol with
  | .ok samples => .ok (samples, handle)
  | .error f => .error f

end Rust

end Trajopt
