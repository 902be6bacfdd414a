import Verif.Model.Builder

/-!
# Changing the path through `SwervePathBuilder::GetPath()`
(/repo/src/path/SwervePathBuilder.cpp:19-21, /repo/include/trajopt/path/SwervePathBuilder.hpp:29-34)

`GetPath()` hands out a mutable reference to the member `path`, so a caller can change the path
between calls in any way.  The other members are not reachable through it.
-/

namespace Trajopt

variable {D : Type}

/-- What a caller of `SwervePathBuilder` can do: call one of the functions that change the builder, or
change the path through `GetPath()` (SwervePathBuilder.cpp:19-21).  An edit is an arbitrary function
of the path, whose drivetrain is set or not set as a whole; edits of single members: `RawAct`. -/
inductive Act (D : Type) where
  | call (op : Op D)
  | edit (f : SwervePath D → SwervePath D)

/-- `f(builder.GetPath())` (SwervePathBuilder.cpp:19-21). -/
def Builder.editPath (f : SwervePath D → SwervePath D) (b : Builder D) : Builder D :=
  { b with path := f b.path }

/-- Execution of one action (the functions of SwervePathBuilder.hpp:34-182). -/
def Act.exec [Dbl D] (asserts : Bool) (a : Act D) (b : Builder D) : Out D :=
  match a with
  | .call op => op.exec asserts b
  | .edit f => (b.editPath f, none)

/-- A history of actions in which exceptions are caught and the builder is used further
(SwervePathBuilder.hpp:34-182); compare `run`. -/
def runActs [Dbl D] (asserts : Bool) (as : List (Act D)) (b : Builder D) : Builder D :=
  as.foldl (fun b a => (a.exec asserts b).1) b

/-! ### Edits of single members of the drivetrain -/

/-- A `SwerveDrivetrain` (SwerveDrivetrain.hpp:18-26) whose `double` members may be indeterminate; the
vector is empty at first. -/
structure RawDrivetrain (D : Type) where
  mass : Option D := none
  moi : Option D := none
  modules : List (SwerveModule D) := []

/-- The drivetrain as the rest of the model has it (SwerveDrivetrain.hpp:18-26): not set while a member is
indeterminate, since reading that member is undefined. -/
def RawDrivetrain.finish (d : RawDrivetrain D) : Option (SwerveDrivetrain D) :=
  match d.mass, d.moi with
  | some mass, some moi => some ⟨mass, moi, d.modules⟩
  | _, _ => none

/-- `SwervePath` (Path.hpp:32-42), whose drivetrain is set member by member. -/
structure RawPath (D : Type) where
  waypoints : List (Waypoint D) := []
  drivetrain : RawDrivetrain D := {}
  callbacks : List Nat := []

/-- The path as the rest of the model has it (Path.hpp:32-42). -/
def RawPath.finish (p : RawPath D) : SwervePath D := ⟨p.waypoints, p.drivetrain.finish, p.callbacks⟩

/-- `SwervePathBuilder`'s data members (SwervePathBuilder.hpp:185-190), the drivetrain member by member. -/
structure RawBuilder (D : Type) where
  path : RawPath D := {}
  bumpers : List (Obstacle D) := []
  initialGuessPoints : List (List (Pose2 D)) := []
  controlIntervalCounts : List Nat := []

/-- The builder as the rest of the model has it (SwervePathBuilder.hpp:185-190). -/
def RawBuilder.finish (b : RawBuilder D) : Builder D :=
  ⟨b.path.finish, b.bumpers, b.initialGuessPoints, b.controlIntervalCounts⟩

/-- What a caller can do (compare `Act`), where edits of the path (SwervePathBuilder.cpp:19-21) may set single
members of the drivetrain. -/
inductive RawAct (D : Type) where
  | call (op : Op D)
  | edit (f : RawPath D → RawPath D)

/-- Execution of one action: `SetDrivetrain` (SwervePathBuilder.cpp:23-25) assigns all members, other calls do
not touch the drivetrain. -/
def RawAct.exec [Dbl D] (asserts : Bool) (a : RawAct D) (b : RawBuilder D) : RawBuilder D × Option Fault :=
  match a with
  | .call (.setDrivetrain d) =>
    ({ b with path.drivetrain := ⟨some d.mass, some d.moi, d.modules⟩ }, none)
  | .call op =>
    let (b', e) := op.exec asserts b.finish
    (⟨⟨b'.path.waypoints, b.path.drivetrain, b'.path.callbacks⟩, b'.bumpers, b'.initialGuessPoints,
      b'.controlIntervalCounts⟩, e)
  | .edit f => ({ b with path := f b.path }, none)

/-- A history of actions (SwervePathBuilder.hpp:34-182); compare `runActs`. -/
def runRaw [Dbl D] (asserts : Bool) (as : List (RawAct D)) (b : RawBuilder D) : RawBuilder D :=
  as.foldl (fun b a => (a.exec asserts b).1) b

end Trajopt
