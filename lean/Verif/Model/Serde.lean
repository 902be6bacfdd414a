import Verif.Model.FFI

/-!
# Saving and loading (/repo/src/lib.rs:3, 12, 19, 26, 39)

What `#[derive(Deserialize, Serialize)]` makes of the structs of the Rust interface, with `serde_json`
(Cargo.toml:8-9) on the other side.  The text itself is not modelled: an object is the list of its
entries in the order of the text, a number is the double it denotes.  The derived code is serde's,
the structs and their field names are in /repo.
-/

namespace Trajopt

variable {D : Type}

/-- JSON documents (Cargo.toml:9). -/
inductive Json (D : Type) where
  | null
  | bool (b : Bool)
  | number (x : D)
  | string (s : String)
  | array (l : List (Json D))
  | object (l : List (String × Json D))

/-- Errors of derived `Deserialize` implementations (lib.rs:3). -/
inductive SerdeError where
  | invalidType
  | invalidLength (n : Nat)
  | duplicateField (name : String)
  | missingField (name : String)
  deriving Repr, DecidableEq

namespace Serde

/-! ### Writing -/

/-- A field of type `f64` (lib.rs:5-9); JSON has no infinities and no NaN, `serde_json` writes `null`. -/
def putNumber (finite : D → Bool) (x : D) : Json D := if finite x then .number x else .null

/-- A field of type `Vec<f64>` (lib.rs:35-36). -/
def putNumbers (finite : D → Bool) (l : List D) : Json D := .array (l.map (putNumber finite))

/-- `Serialize` for `SwerveModule` (lib.rs:3-10). -/
def putModule (finite : D → Bool) (m : RustModule D) : Json D :=
  .object [("x", putNumber finite m.x), ("y", putNumber finite m.y),
    ("wheel_radius", putNumber finite m.wheel_radius),
    ("wheel_max_angular_velocity", putNumber finite m.wheel_max_angular_velocity),
    ("wheel_max_torque", putNumber finite m.wheel_max_torque)]

/-- `Serialize` for `SwerveDrivetrain` (lib.rs:12-17). -/
def putDrivetrain (finite : D → Bool) (d : RustDrivetrain D) : Json D :=
  .object [("mass", putNumber finite d.mass), ("moi", putNumber finite d.moi),
    ("modules", .array (d.modules.map (putModule finite)))]

/-- `Serialize` for `Pose2d` (lib.rs:19-24). -/
def putPose (finite : D → Bool) (p : RustPose D) : Json D :=
  .object [("x", putNumber finite p.x), ("y", putNumber finite p.y), ("heading", putNumber finite p.heading)]

/-- `Serialize` for `HolonomicTrajectorySample` (lib.rs:26-37). -/
def putSample (finite : D → Bool) (s : RustSample D) : Json D :=
  .object [("timestamp", putNumber finite s.timestamp), ("x", putNumber finite s.x), ("y", putNumber finite s.y),
    ("heading", putNumber finite s.heading), ("velocity_x", putNumber finite s.velocity_x),
    ("velocity_y", putNumber finite s.velocity_y), ("angular_velocity", putNumber finite s.angular_velocity),
    ("module_forces_x", putNumbers finite s.module_forces_x),
    ("module_forces_y", putNumbers finite s.module_forces_y)]

/-- `Serialize` for `HolonomicTrajectory` (lib.rs:39-42), a struct with the one field `samples`. -/
def putTrajectory (finite : D → Bool) (t : List (RustSample D)) : Json D :=
  .object [("samples", .array (t.map (putSample finite)))]

/-! ### Reading -/

/-- A field of type `f64` (lib.rs:5-9). -/
def getNumber : Json D → Except SerdeError D
  | .number x => .ok x
  | _ => .error .invalidType

/-- A field of type `Vec<T>` (lib.rs:16, 35-36, 41). -/
def getVec {α : Type} (get : Json D → Except SerdeError α) : Json D → Except SerdeError (List α)
  | .array l => l.mapM get
  | _ => .error .invalidType

/-- One field met in an object (lib.rs:3): at most once, then its value is read. -/
def take {α : Type} (name : String) (slot : Option α) (r : Except SerdeError α) :
    Except SerdeError (Option α) :=
  match slot with
  | some _ => .error (.duplicateField name)
  | none => r.map some

/-- One field at the end of an object (lib.rs:3): it must have been met. -/
def need {α : Type} (name : String) : Option α → Except SerdeError α
  | some a => .ok a
  | none => .error (.missingField name)

/-- One field of a struct written as an array (lib.rs:3): the `n`th element; without it the length is wrong. -/
def nth {α : Type} (l : List (Json D)) (n : Nat) (get : Json D → Except SerdeError α) : Except SerdeError α :=
  match l[n]? with
  | some j => get j
  | none => .error (.invalidLength n)

/-- The end of a struct written as an array (lib.rs:3): `serde_json` rejects further elements. -/
def full {α : Type} (l : List (Json D)) (n : Nat) (a : α) : Except SerdeError α :=
  if l.length ≤ n then .ok a else .error (.invalidLength l.length)

/-- Partly read `SwerveModule` (lib.rs:3-10). -/
structure ModuleSlots (D : Type) where
  x : Option D := none
  y : Option D := none
  wheel_radius : Option D := none
  wheel_max_angular_velocity : Option D := none
  wheel_max_torque : Option D := none

/-- One entry of a `SwerveModule` (lib.rs:3-10); unknown ones are skipped. -/
def moduleEntry (s : ModuleSlots D) (e : String × Json D) : Except SerdeError (ModuleSlots D) :=
  if e.1 = "x" then do return { s with x := ← take "x" s.x (getNumber e.2) }
  else if e.1 = "y" then do return { s with y := ← take "y" s.y (getNumber e.2) }
  else if e.1 = "wheel_radius" then do
    return { s with wheel_radius := ← take "wheel_radius" s.wheel_radius (getNumber e.2) }
  else if e.1 = "wheel_max_angular_velocity" then do
    let w ← take "wheel_max_angular_velocity" s.wheel_max_angular_velocity (getNumber e.2)
    return { s with wheel_max_angular_velocity := w }
  else if e.1 = "wheel_max_torque" then do
    return { s with wheel_max_torque := ← take "wheel_max_torque" s.wheel_max_torque (getNumber e.2) }
  else return s

/-- `Deserialize` for `SwerveModule` (lib.rs:3-10). -/
def getModule : Json D → Except SerdeError (RustModule D)
  | .object l => do
    let s ← l.foldlM moduleEntry {}
    return ⟨← need "x" s.x, ← need "y" s.y, ← need "wheel_radius" s.wheel_radius,
      ← need "wheel_max_angular_velocity" s.wheel_max_angular_velocity,
      ← need "wheel_max_torque" s.wheel_max_torque⟩
  | .array l => do
    full l 5 ⟨← nth l 0 getNumber, ← nth l 1 getNumber, ← nth l 2 getNumber, ← nth l 3 getNumber,
      ← nth l 4 getNumber⟩
  | _ => .error .invalidType

/-- Partly read `SwerveDrivetrain` (lib.rs:12-17). -/
structure DrivetrainSlots (D : Type) where
  mass : Option D := none
  moi : Option D := none
  modules : Option (List (RustModule D)) := none

/-- One entry of a `SwerveDrivetrain` (lib.rs:12-17). -/
def drivetrainEntry (s : DrivetrainSlots D) (e : String × Json D) : Except SerdeError (DrivetrainSlots D) :=
  if e.1 = "mass" then do return { s with mass := ← take "mass" s.mass (getNumber e.2) }
  else if e.1 = "moi" then do return { s with moi := ← take "moi" s.moi (getNumber e.2) }
  else if e.1 = "modules" then do
    return { s with modules := ← take "modules" s.modules (getVec getModule e.2) }
  else return s

/-- `Deserialize` for `SwerveDrivetrain` (lib.rs:12-17). -/
def getDrivetrain : Json D → Except SerdeError (RustDrivetrain D)
  | .object l => do
    let s ← l.foldlM drivetrainEntry {}
    return ⟨← need "mass" s.mass, ← need "moi" s.moi, ← need "modules" s.modules⟩
  | .array l => do
    full l 3 ⟨← nth l 0 getNumber, ← nth l 1 getNumber, ← nth l 2 (getVec getModule)⟩
  | _ => .error .invalidType

/-- Partly read `Pose2d` (lib.rs:19-24). -/
structure PoseSlots (D : Type) where
  x : Option D := none
  y : Option D := none
  heading : Option D := none

/-- One entry of a `Pose2d` (lib.rs:19-24). -/
def poseEntry (s : PoseSlots D) (e : String × Json D) : Except SerdeError (PoseSlots D) :=
  if e.1 = "x" then do return { s with x := ← take "x" s.x (getNumber e.2) }
  else if e.1 = "y" then do return { s with y := ← take "y" s.y (getNumber e.2) }
  else if e.1 = "heading" then do return { s with heading := ← take "heading" s.heading (getNumber e.2) }
  else return s

/-- `Deserialize` for `Pose2d` (lib.rs:19-24). -/
def getPose : Json D → Except SerdeError (RustPose D)
  | .object l => do
    let s ← l.foldlM poseEntry {}
    return ⟨← need "x" s.x, ← need "y" s.y, ← need "heading" s.heading⟩
  | .array l => do
    full l 3 ⟨← nth l 0 getNumber, ← nth l 1 getNumber, ← nth l 2 getNumber⟩
  | _ => .error .invalidType

/-- Partly read `HolonomicTrajectorySample` (lib.rs:26-37). -/
structure SampleSlots (D : Type) where
  timestamp : Option D := none
  x : Option D := none
  y : Option D := none
  heading : Option D := none
  velocity_x : Option D := none
  velocity_y : Option D := none
  angular_velocity : Option D := none
  module_forces_x : Option (List D) := none
  module_forces_y : Option (List D) := none

/-- One entry of a `HolonomicTrajectorySample` (lib.rs:26-37). -/
def sampleEntry (s : SampleSlots D) (e : String × Json D) : Except SerdeError (SampleSlots D) :=
  if e.1 = "timestamp" then do return { s with timestamp := ← take "timestamp" s.timestamp (getNumber e.2) }
  else if e.1 = "x" then do return { s with x := ← take "x" s.x (getNumber e.2) }
  else if e.1 = "y" then do return { s with y := ← take "y" s.y (getNumber e.2) }
  else if e.1 = "heading" then do return { s with heading := ← take "heading" s.heading (getNumber e.2) }
  else if e.1 = "velocity_x" then do
    return { s with velocity_x := ← take "velocity_x" s.velocity_x (getNumber e.2) }
  else if e.1 = "velocity_y" then do
    return { s with velocity_y := ← take "velocity_y" s.velocity_y (getNumber e.2) }
  else if e.1 = "angular_velocity" then do
    return { s with angular_velocity := ← take "angular_velocity" s.angular_velocity (getNumber e.2) }
  else if e.1 = "module_forces_x" then do
    return { s with module_forces_x := ← take "module_forces_x" s.module_forces_x (getVec getNumber e.2) }
  else if e.1 = "module_forces_y" then do
    return { s with module_forces_y := ← take "module_forces_y" s.module_forces_y (getVec getNumber e.2) }
  else return s

/-- `Deserialize` for `HolonomicTrajectorySample` (lib.rs:26-37). -/
def getSample : Json D → Except SerdeError (RustSample D)
  | .object l => do
    let s ← l.foldlM sampleEntry {}
    return ⟨← need "timestamp" s.timestamp, ← need "x" s.x, ← need "y" s.y, ← need "heading" s.heading,
      ← need "velocity_x" s.velocity_x, ← need "velocity_y" s.velocity_y,
      ← need "angular_velocity" s.angular_velocity, ← need "module_forces_x" s.module_forces_x,
      ← need "module_forces_y" s.module_forces_y⟩
  | .array l => do
    full l 9 ⟨← nth l 0 getNumber, ← nth l 1 getNumber, ← nth l 2 getNumber, ← nth l 3 getNumber,
      ← nth l 4 getNumber, ← nth l 5 getNumber, ← nth l 6 getNumber, ← nth l 7 (getVec getNumber),
      ← nth l 8 (getVec getNumber)⟩
  | _ => .error .invalidType

/-- One entry of a `HolonomicTrajectory` (lib.rs:39-42), whose one slot is `samples`. -/
def trajectoryEntry (s : Option (List (RustSample D))) (e : String × Json D) :
    Except SerdeError (Option (List (RustSample D))) :=
  if e.1 = "samples" then take "samples" s (getVec getSample e.2) else return s

/-- `Deserialize` for `HolonomicTrajectory` (lib.rs:39-42). -/
def getTrajectory : Json D → Except SerdeError (List (RustSample D))
  | .object l => do need "samples" (← l.foldlM trajectoryEntry none)
  | .array l => do full l 1 (← nth l 0 (getVec getSample))
  | _ => .error .invalidType

end Serde

end Trajopt
