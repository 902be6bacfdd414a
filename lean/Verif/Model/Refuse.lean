import Verif.Model.Runtime

/-!
# Memory running out during `Generate`

`SwerveTrajectoryGenerator::Generate` and the callback installed by the constructor
(/repo/src/SwerveTrajectoryGenerator.cpp:45-62, 274-294) allocate memory, and an allocation can be
refused.  Nothing on the way catches `std::bad_alloc`, so it leaves `Generate` like an exception of
a user's callback.

Allocations are made in `Solve` (285), by `ConstructSwerveSolution` (58, 292), by the conversion of
a solution before a Rust callback is called (/repo/src/RustFFI.cpp:222-240) and for the message of a
generation that was stopped (290).  None are made by lines 46-56 and 281.

Simplified: what `Solve` has allocated is freed on the way out, and is not modelled.
-/

set_option autoImplicit false

namespace Trajopt

variable {D : Type}

/-- What can happen next, with memory that can run out. -/
inductive MemEvent (D : Type) where
  /-- what can happen with enough memory -/
  | plain (e : Event D)
  /-- the next allocation of generator `g` is refused; if that is in `Solve`, the decision variables
  have got these values -/
  | refuse (g : Nat) (values : Nat → D)

/-- An allocation of generator `g` is refused (SwerveTrajectoryGenerator.cpp:45-62, 274-294).
Phases that allocate nothing go on. -/
def World.refuse (w : World D) (g : Nat) (values : Nat → D) : World D :=
  match (w.threads g).phase with
  -- in `Solve` (285), or after it (290, 292)
  | .solving =>
    w.set g { generator := (w.threads g).generator.withValues values, phase := .threw }
  -- `lastFrameTime = now` (56) has been done when `ConstructSwerveSolution` (58) is refused
  | .passed now =>
    { w.set g { w.threads g with phase := .threw } with lastFrame := some now }
  -- the conversion for the next callback (RustFFI.cpp:222-240), or a copy it makes for itself
  | .calling _ (_ :: _) => w.set g { w.threads g with phase := .threw }
  -- the flag is set, `Solve` has stopped and the message is made (290)
  | .polling =>
    if w.flag ≠ 0 then w.set g { w.threads g with phase := .threw } else w
  | _ => w

/-- One step. -/
def World.memStep (toMessage : Exit → String) (w : World D) : MemEvent D → World D
  | .plain e => w.step toMessage e
  | .refuse g values => w.refuse g values

/-- A schedule. -/
def World.memRun (toMessage : Exit → String) (w : World D) (rs : List (MemEvent D)) : World D :=
  rs.foldl (World.memStep toMessage) w

end Trajopt
