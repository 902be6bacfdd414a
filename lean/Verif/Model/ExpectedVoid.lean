import Verif.Model.Expected

/-!
# `expected<void, E>` (/repo/include/trajopt/util/expected:651-725, 914-973)

Where `Model/Expected` has a `T`, there is nothing here: an object that has its value has no live object in its
union.  Values cannot be assigned, emplaced or swapped, and there is no conversion from another `expected`: these
members do not exist for `void`.
-/

namespace Trajopt.Exp.Void

open Exp

variable {E : Type} (e : Elem E)

/-- The default constructor (expected:656, 691, 1593). -/
def new (i : Nat) : M Unit E Unit := put i ⟨true, .raw⟩

/-- The constructors from an error (expected:662-675, 696-709, 1615-1662). -/
def newErr (i : Nat) (s : Src E) : M Unit E Unit := do
  mayThrow (s.nothrow e)
  put i ⟨false, .err s.get⟩

/-- The destructor (expected:677, 711-715). -/
def delete (i : Nat) : M Unit E Unit := do
  if !(← hasValue i) then destroyErr i
  release i

/-- `construct_error` (expected:932-937) with a `const&` to the error of `j`. -/
def constructErrorCopy (i j : Nat) : M Unit E Unit := noexcept do
  let x ← readErr j
  mayThrow e.nothrowCopy
  placeErr i x
  setHas i false

/-- `construct_error` (expected:932-937) with an rvalue, the error of `j`. -/
def constructErrorMove (i j : Nat) : M Unit E Unit := noexcept do
  let x ← takeErr e j
  placeErr i x
  setHas i false

/-- The copy constructor (expected:990-997); `construct_with` only sets the flag (expected:926-930). -/
def copyConstruct (i j : Nat) : M Unit E Unit := do
  let rhsHas ← hasValue j
  put i ⟨false, .raw⟩
  if rhsHas then setHas i true else constructErrorCopy e i j

/-- The move constructor (expected:1028-1036). -/
def moveConstruct (i j : Nat) : M Unit E Unit := do
  let rhsHas ← hasValue j
  put i ⟨false, .raw⟩
  if rhsHas then setHas i true else constructErrorMove e i j

/-- `assign` (expected:939-954) with a `const&`. -/
def copyAssign (i j : Nat) : M Unit E Unit := noexcept do
  if !(← hasValue i) then
    if ← hasValue j then
      destroyErr i
      setHas i true
    else
      assignErr e i (.copy (← readErr j))
  else
    if !(← hasValue j) then constructErrorCopy e i j

/-- `assign` (expected:939-954) with an rvalue. -/
def moveAssign (i j : Nat) : M Unit E Unit := noexcept do
  if !(← hasValue i) then
    if ← hasValue j then
      destroyErr i
      setHas i true
    else
      moveAssignErr e i j
  else
    if !(← hasValue j) then constructErrorMove e i j

/-- `operator=(unexpected<G>)` (expected:1794-1822); `destroy_val` does nothing (expected:970-972). -/
def assignUnexpected (i : Nat) (s : Src E) : M Unit E Unit :=
  let body : M Unit E Unit := do
    if !(← hasValue i) then assignErr e i s
    else
      mayThrow (s.nothrow e)
      placeErr i s.get
      setHas i false
  match s with
  | .copy _ => body
  | .move _ => noexcept body

/-- The calls of a program. -/
inductive Call (E : Type) where
  | new (i : Nat)
  | newErr (i : Nat) (s : Src E)
  | copyConstruct (i j : Nat)
  | moveConstruct (i j : Nat)
  | delete (i : Nat)
  | copyAssign (i j : Nat)
  | moveAssign (i j : Nat)
  | assignUnexpected (i : Nat) (s : Src E)

/-- Execution of a call (the members above). -/
def Call.exec : Call E → M Unit E Unit
  | .new i => Void.new i
  | .newErr i s => Void.newErr e i s
  | .copyConstruct i j => Void.copyConstruct e i j
  | .moveConstruct i j => Void.moveConstruct e i j
  | .delete i => Void.delete i
  | .copyAssign i j => Void.copyAssign e i j
  | .moveAssign i j => Void.moveAssign e i j
  | .assignUnexpected i s => Void.assignUnexpected e i s

/-- A program that catches exceptions and goes on. -/
def runCalls : List (Call E) → M Unit E Unit
  | [] => pure ()
  | c :: cs => do
    tryCatch (c.exec e) fun s => if s = .threw then pure () else throw s
    runCalls cs

end Trajopt.Exp.Void
