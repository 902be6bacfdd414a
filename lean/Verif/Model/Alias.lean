import Verif.Model.Builder

/-!
# Constraints passed by reference
(/repo/include/trajopt/path/SwervePathBuilder.hpp:124-147, /repo/include/trajopt/path/Path.hpp:21-27)

`WptConstraint` and `SgmtConstraint` take a `const Constraint&`, and `GetPath()` (SwervePathBuilder.cpp:19-21)
gives access to the constraints already recorded, so the reference may point into the vectors the call
appends to.  Here these vectors have buffers; appending to a full one moves its elements to a new
buffer, and a reference into the old one is dangling.  The vector of waypoints may be moved too; that moves
each `Waypoint`, and with it its two vectors, which keep their buffers.
-/

namespace Trajopt

variable {D : Type}

/-- The two vectors of a `Waypoint` (Path.hpp:23-26). -/
inductive Slot where
  | waypoint
  | segment
  deriving DecidableEq, Repr

/-- The buffer of a `std::vector`: how many elements have room, and which buffer it is. -/
structure Buffer where
  capacity : Nat
  number : Nat
  deriving DecidableEq, Repr

/-- The builder and the buffers of the vectors in `path.waypoints`. -/
structure Memory (D : Type) where
  builder : Builder D
  buffer : Nat → Slot → Buffer

/-- A freshly constructed builder: no waypoint, so no vector has a buffer. -/
def Memory.new : Memory D := ⟨Builder.new, fun _ _ => ⟨0, 0⟩⟩

/-- The elements of one of the vectors (Path.hpp:23-26). -/
def Waypoint.list (w : Waypoint D) : Slot → List (Constraint D)
  | .waypoint => w.waypointConstraints
  | .segment => w.segmentConstraints

/-- The elements of a vector in `path.waypoints` (Path.hpp:23-26). -/
def Memory.list (m : Memory D) (i : Nat) (s : Slot) : List (Constraint D) :=
  match m.builder.path.waypoints[i]? with
  | some w => w.list s
  | none => []

/-- The parameter `const Constraint& constraint` (SwervePathBuilder.hpp:124, 138): a temporary, or a reference to an
element of a vector in `path.waypoints`, into the buffer that vector had when the reference was made. -/
inductive Arg (D : Type) where
  | temporary (c : Constraint D)
  | element (i : Nat) (s : Slot) (pos number : Nat)

/-- Reading the parameter; undefined if the buffer is gone. -/
def Memory.read (m : Memory D) : Arg D → Res (Constraint D)
  | .temporary c => .ok c
  | .element i s pos number =>
    if (m.buffer i s).number = number then
      match (m.list i s)[pos]? with
      | some c => .ok c
      | none => .error .ub
    else .error .ub

/-- Outcome of a call: the state it leaves and, if it did not return, why. -/
abbrev MemOut (D : Type) := Memory D × Option Fault

/-- Sequencing of statements: stop at the first fault, keeping the state. -/
def MemOut.andThen (o : MemOut D) (f : Memory D → MemOut D) : MemOut D :=
  match o with
  | (m, none) => f m
  | (m, some e) => (m, some e)

/-- `path.waypoints.at(i).<slot>.push_back(constraint)` (SwervePathBuilder.hpp:126, 142, 144, 145).  A full vector
gets a new buffer, of capacity `grow` of the old one.  `push_back` of an element of the vector itself is allowed:
the new element is made before the old buffer goes. -/
def Memory.pushBack (grow : Nat → Nat) (i : Nat) (s : Slot) (arg : Arg D) (m : Memory D) : MemOut D :=
  if i < m.builder.path.waypoints.length then
    match m.read arg with
    | .error e => (m, some e)
    | .ok c =>
      let b := m.buffer i s
      let b' := if (m.list i s).length = b.capacity then ⟨grow b.capacity, b.number + 1⟩ else b
      ({ builder := (m.builder.modifyWpt i (match s with
          | .waypoint => Builder.pushWpt c
          | .segment => Builder.pushSgmt c)).1
         buffer := fun j t => if j = i ∧ t = s then b' else m.buffer j t }, none)
  else (m, some .outOfRange)

/-- `NewWpts` (SwervePathBuilder.cpp:201-213): new waypoints have empty vectors without buffers. -/
def Memory.newWpts [Dbl D] (finalIndex : Nat) (m : Memory D) : Memory D :=
  { m with builder := m.builder.newWpts finalIndex }

/-- `WptConstraint` (SwervePathBuilder.hpp:124-127). -/
def Memory.wptConstraint [Dbl D] (grow : Nat → Nat) (index : Nat) (arg : Arg D) (m : Memory D) : MemOut D :=
  (m.newWpts index).pushBack grow index .waypoint arg

/-- The loop of `SgmtConstraint` (SwervePathBuilder.hpp:143-146), `n` iterations left. -/
def Memory.sgmtLoop (grow : Nat → Nat) (arg : Arg D) : (n index : Nat) → Memory D → MemOut D
  | 0, _, m => (m, none)
  | n + 1, index, m =>
    (m.pushBack grow index .waypoint arg).andThen fun m =>
    (m.pushBack grow index .segment arg).andThen fun m =>
    sgmtLoop grow arg n (index + 1) m

/-- `SgmtConstraint` (SwervePathBuilder.hpp:137-147). -/
def Memory.sgmtConstraint [Dbl D] (grow : Nat → Nat) (asserts : Bool) (fromIndex toIndex : Nat) (arg : Arg D)
    (m : Memory D) : MemOut D :=
  if asserts && !decide (fromIndex < toIndex) then (m, some .assertFailed)
  else
    ((m.newWpts toIndex).pushBack grow fromIndex .waypoint arg).andThen fun m =>
    m.sgmtLoop grow arg (toIndex - fromIndex) (fromIndex + 1)

/-- The two calls, with their parameter. -/
inductive RefCall (D : Type) where
  | wpt (index : Nat) (arg : Arg D)
  | sgmt (fromIndex toIndex : Nat) (arg : Arg D)

/-- Execution of one call (SwervePathBuilder.hpp:124-147). -/
def RefCall.exec [Dbl D] (grow : Nat → Nat) (asserts : Bool) (m : Memory D) : RefCall D → MemOut D
  | .wpt i arg => m.wptConstraint grow i arg
  | .sgmt i j arg => m.sgmtConstraint grow asserts i j arg

/-- A history of calls in which exceptions are caught (compare `run`). -/
def runRefs [Dbl D] (grow : Nat → Nat) (asserts : Bool) (cs : List (RefCall D)) (m : Memory D) : Memory D :=
  cs.foldl (fun m c => (c.exec grow asserts m).1) m

end Trajopt
