import Verif.Model.Base

/-!
# Generator objects

`SwerveTrajectoryGenerator` declares no copy or move operations, so the compiler provides them,
memberwise.  Its constructor stores a closure that captures `this`
(/repo/src/SwerveTrajectoryGenerator.cpp:45), which memberwise copies do not adjust.

Only the members that closure uses are modelled here: `path.callbacks` and the `callbacks` vector.
Whose solution is sent is modelled as an address.
-/

namespace Trajopt

/-- The closure of SwerveTrajectoryGenerator.cpp:45: `this`, as an address, and `handle`. -/
structure Closure where
  this : Nat
  handle : Int
  deriving Repr, DecidableEq

/-- A generator object (/repo/include/trajopt/SwerveTrajectoryGenerator.hpp:45-73): the user's callbacks,
by number, in `path.callbacks`, and the member `callbacks`. -/
structure Object where
  registered : List Nat
  callbacks : List Closure
  deriving Repr, DecidableEq

/-- The generators that exist, by address. -/
abbrev Heap := Nat → Option Object

/-- What a program can do with generator objects. -/
inductive ObjectOp where
  /-- `SwerveTrajectoryGenerator{path, handle}` at address `o`, `path` having these callbacks
  (SwerveTrajectoryGenerator.cpp:40-62) -/
  | make (o : Nat) (registered : List Nat) (handle : Int)
  /-- copy construction (implicit, SwerveTrajectoryGenerator.hpp:24-78) -/
  | copy (src dst : Nat)
  /-- move construction (implicit) -/
  | move (src dst : Nat)
  /-- copy assignment (implicit) -/
  | assign (src dst : Nat)
  /-- move assignment (implicit) -/
  | moveAssign (src dst : Nat)
  /-- end of lifetime (implicit destructor) -/
  | destroy (o : Nat)
  deriving Repr, DecidableEq

/-- A write to one address. -/
def Heap.put (h : Heap) (o : Nat) (x : Option Object) : Heap := fun p => if p = o then x else h p

/-- The object at an address; using one that does not exist is undefined behaviour. -/
def Heap.get (h : Heap) (o : Nat) : Res Object :=
  match h o with
  | some x => .ok x
  | none => .error .ub

/-- A construction needs storage that no other generator occupies. -/
def Heap.free (h : Heap) (o : Nat) : Res Unit :=
  match h o with
  | some _ => .error .ub
  | none => .ok ()

/-- One operation.  `std::vector` is empty after a move.  Moving an object into itself is excluded: the
standard leaves its result open. -/
def Heap.step (h : Heap) : ObjectOp → Res Heap
  | .make o registered handle => do
    h.free o
    return h.put o (some ⟨registered, [⟨o, handle⟩]⟩)
  | .copy src dst => do
    let x ← h.get src
    h.free dst
    return h.put dst (some x)
  | .move src dst => do
    let x ← h.get src
    h.free dst
    return (h.put dst (some x)).put src (some ⟨[], []⟩)
  | .assign src dst => do
    let x ← h.get src
    let _ ← h.get dst
    return h.put dst (some x)
  | .moveAssign src dst => do
    let x ← h.get src
    let _ ← h.get dst
    if src = dst then .error .ub
    else return (h.put dst (some x)).put src (some ⟨[], []⟩)
  | .destroy o => do
    let _ ← h.get o
    return h.put o none

/-- A program's operations in order. -/
def Heap.run (h : Heap) : List ObjectOp → Res Heap
  | [] => .ok h
  | op :: ops => do
    let h ← h.step op
    h.run ops

/-- One call of a user's callback: with the solution of which generator, which callback, with which
handle. -/
structure Sent where
  solutionOf : Nat
  callback : Nat
  handle : Int
  deriving Repr, DecidableEq

/-- The body of one closure, once it passes the frame limit (SwerveTrajectoryGenerator.cpp:58-61):
everything goes through the captured `this`. -/
def Heap.fire (h : Heap) (c : Closure) : Res (List Sent) := do
  let x ← h.get c.this
  return x.registered.map fun callback => ⟨c.this, callback, c.handle⟩

/-- An iteration of `Generate` on the generator at `o` (SwerveTrajectoryGenerator.cpp:277-281). -/
def Heap.progress (h : Heap) (o : Nat) : Res (List Sent) := do
  let x ← h.get o
  let sent ← x.callbacks.mapM h.fire
  return sent.flatten

end Trajopt
