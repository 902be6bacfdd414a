import Verif.Model.Serde
import Mathlib.Data.List.Forall2

/-!
# Specification: documents that describe a value
-/

set_option autoImplicit false

namespace Trajopt.Spec

variable {D : Type}

/-- Exactly one entry has this name, and its value is as described. -/
def Once (l : List (String × Json D)) (name : String) (P : Json D → Prop) : Prop :=
  ∃ j, P j ∧ l.filter (fun e => e.1 = name) = [(name, j)]

/-- A struct: an object that has each field once, whatever else it has, or an array of just the fields. -/
def IsStruct (fields : List (String × (Json D → Prop))) (j : Json D) : Prop :=
  (∃ l, j = .object l ∧ ∀ f ∈ fields, Once l f.1 f.2) ∨
  (∃ l, j = .array l ∧ List.Forall₂ (fun k f => f.2 k) l fields)

/-- A number. -/
def IsNumber (x : D) (j : Json D) : Prop := j = .number x

/-- A list. -/
def IsList {α : Type} (P : α → Json D → Prop) (xs : List α) (j : Json D) : Prop :=
  ∃ l, j = .array l ∧ List.Forall₂ P xs l

/-- A module. -/
def IsModule (m : RustModule D) : Json D → Prop :=
  IsStruct [("x", IsNumber m.x), ("y", IsNumber m.y), ("wheel_radius", IsNumber m.wheel_radius),
    ("wheel_max_angular_velocity", IsNumber m.wheel_max_angular_velocity),
    ("wheel_max_torque", IsNumber m.wheel_max_torque)]

/-- A drivetrain. -/
def IsDrivetrain (d : RustDrivetrain D) : Json D → Prop :=
  IsStruct [("mass", IsNumber d.mass), ("moi", IsNumber d.moi), ("modules", IsList IsModule d.modules)]

/-- A pose. -/
def IsPose (p : RustPose D) : Json D → Prop :=
  IsStruct [("x", IsNumber p.x), ("y", IsNumber p.y), ("heading", IsNumber p.heading)]

/-- A sample. -/
def IsSample (s : RustSample D) : Json D → Prop :=
  IsStruct [("timestamp", IsNumber s.timestamp), ("x", IsNumber s.x), ("y", IsNumber s.y),
    ("heading", IsNumber s.heading), ("velocity_x", IsNumber s.velocity_x), ("velocity_y", IsNumber s.velocity_y),
    ("angular_velocity", IsNumber s.angular_velocity), ("module_forces_x", IsList IsNumber s.module_forces_x),
    ("module_forces_y", IsList IsNumber s.module_forces_y)]

/-- A trajectory. -/
def IsTrajectory (t : List (RustSample D)) : Json D → Prop :=
  IsStruct [("samples", IsList IsSample t)]

/-- The numbers in a module. -/
def moduleNumbers (m : RustModule D) : List D :=
  [m.x, m.y, m.wheel_radius, m.wheel_max_angular_velocity, m.wheel_max_torque]

/-- The numbers in a drivetrain. -/
def drivetrainNumbers (d : RustDrivetrain D) : List D := d.mass :: d.moi :: d.modules.flatMap moduleNumbers

/-- The numbers in a pose. -/
def poseNumbers (p : RustPose D) : List D := [p.x, p.y, p.heading]

/-- The numbers in a sample. -/
def sampleNumbers (s : RustSample D) : List D :=
  [s.timestamp, s.x, s.y, s.heading, s.velocity_x, s.velocity_y, s.angular_velocity] ++
    s.module_forces_x ++ s.module_forces_y

end Trajopt.Spec
