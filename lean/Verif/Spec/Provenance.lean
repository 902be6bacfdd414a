import Verif.Model.Objects
import Mathlib.Data.Int.Notation
import Mathlib.Data.Nat.Notation

/-!
# Where the content of a generator object comes from

Read off the history of a program, newest operation first, without any memory.
-/

set_option autoImplicit false

namespace Trajopt.Spec

/-- What is at an address: no generator; one that has been moved away; one with the content that
was constructed at `place`, from a path with the callbacks `registered`, with `handle`. -/
inductive Content where
  | absent
  | emptied
  | made (place : ℕ) (registered : List ℕ) (handle : ℤ)
  deriving DecidableEq

/-- What is at address `o` after a history (newest first). -/
def content : List ObjectOp → ℕ → Content
  | [], _ => .absent
  | .make p registered handle :: past, o =>
    if o = p then .made p registered handle else content past o
  | .copy src dst :: past, o | .assign src dst :: past, o =>
    if o = dst then content past src else content past o
  | .move src dst :: past, o | .moveAssign src dst :: past, o =>
    if o = dst then content past src else if o = src then .emptied else content past o
  | .destroy p :: past, o => if o = p then .absent else content past o

/-- An operation that C++ defines, after a history: generators are constructed where there is none, and used
only where there is one. -/
def Allowed (past : List ObjectOp) : ObjectOp → Prop
  | .make o _ _ => content past o = .absent
  | .copy src dst | .move src dst => content past src ≠ .absent ∧ content past dst = .absent
  | .assign src dst => content past src ≠ .absent ∧ content past dst ≠ .absent
  | .moveAssign src dst =>
    content past src ≠ .absent ∧ content past dst ≠ .absent ∧ src ≠ dst
  | .destroy o => content past o ≠ .absent

/-- What an iteration of the generator at `o` sends: with the handle its content was given, the solution of the
generator now at the place its content was constructed, to the callbacks that one now has. -/
def sends (past : List ObjectOp) (o : ℕ) : Res (List Sent) :=
  match content past o with
  | .absent => .error .ub
  | .emptied => .ok []
  | .made place _ handle =>
    match content past place with
    | .absent => .error .ub
    | .emptied => .ok []
    | .made _ registered _ => .ok (registered.map fun c => ⟨place, c, handle⟩)

end Trajopt.Spec
