import Verif.Model.Serde

/-!
# Specification: what is wrong with a document
-/

set_option autoImplicit false

namespace Trajopt.Spec

variable {D : Type}

/-- The error is true of a document where a number is wanted. -/
def BlameNumber (e : SerdeError) (j : Json D) : Prop := e = .invalidType ∧ ∀ x, j ≠ .number x

/-- The error is true of a document where a list is wanted, or of one of the elements. -/
def BlameList (P : SerdeError → Json D → Prop) (e : SerdeError) (j : Json D) : Prop :=
  (e = .invalidType ∧ ∀ l, j ≠ .array l) ∨ ∃ l, j = .array l ∧ ∃ v ∈ l, P e v

/-- The error is true of a document where a struct with these fields is wanted, or of one of the
fields: a field it says is missing is missing, one it says is there twice is, and an array it says
has the wrong length has that length and not that of the fields. -/
def Blame (fields : List (String × (SerdeError → Json D → Prop))) (e : SerdeError) (j : Json D) :
    Prop :=
  (∃ l, j = .object l ∧
    ((∃ f ∈ fields, e = .missingField f.1 ∧ f.1 ∉ l.map Prod.fst) ∨
      (∃ f ∈ fields, e = .duplicateField f.1 ∧ 2 ≤ (l.map Prod.fst).count f.1) ∨
      ∃ f ∈ fields, ∃ v, (f.1, v) ∈ l ∧ f.2 e v)) ∨
  (∃ l, j = .array l ∧
    ((e = .invalidLength l.length ∧ l.length ≠ fields.length) ∨
      ∃ (i : Nat) (f : String × (SerdeError → Json D → Prop)) (v : Json D), fields[i]? = some f ∧
        l[i]? = some v ∧ f.2 e v)) ∨
  (e = .invalidType ∧ (∀ l, j ≠ .object l) ∧ ∀ l, j ≠ .array l)

/-- A module. -/
def BlameModule : SerdeError → Json D → Prop :=
  Blame [("x", BlameNumber), ("y", BlameNumber), ("wheel_radius", BlameNumber),
    ("wheel_max_angular_velocity", BlameNumber), ("wheel_max_torque", BlameNumber)]

/-- A drivetrain. -/
def BlameDrivetrain : SerdeError → Json D → Prop :=
  Blame [("mass", BlameNumber), ("moi", BlameNumber), ("modules", BlameList BlameModule)]

/-- A pose. -/
def BlamePose : SerdeError → Json D → Prop :=
  Blame [("x", BlameNumber), ("y", BlameNumber), ("heading", BlameNumber)]

/-- A sample. -/
def BlameSample : SerdeError → Json D → Prop :=
  Blame [("timestamp", BlameNumber), ("x", BlameNumber), ("y", BlameNumber),
    ("heading", BlameNumber), ("velocity_x", BlameNumber), ("velocity_y", BlameNumber),
    ("angular_velocity", BlameNumber), ("module_forces_x", BlameList BlameNumber),
    ("module_forces_y", BlameList BlameNumber)]

/-- A trajectory. -/
def BlameTrajectory : SerdeError → Json D → Prop :=
  Blame [("samples", BlameList BlameSample)]

end Trajopt.Spec
