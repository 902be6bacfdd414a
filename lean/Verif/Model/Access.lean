import Verif.Model.Runtime

/-!
# Shared memory

Which memory that several threads can reach a step of `Model/Runtime` accesses, and how.  All other memory of a step
(the problem, the path, the solution handed to callbacks) belongs to the generator whose thread takes the step.
-/

namespace Trajopt

variable {D : Type}

/-- Accesses to the cancellation flag, a `std::atomic<int>` (/repo/src/util/Cancellation.cpp:7-10), and to the static
`lastFrameTime`, a plain variable (/repo/src/SwerveTrajectoryGenerator.cpp:50). -/
inductive Access where
  /-- `GetCancellationFlag() = …` -/
  | flagStore
  /-- `return GetCancellationFlag()` -/
  | flagLoad
  /-- control passes through the declaration of `lastFrameTime`, which is initialised (C++ [stmt.dcl]: once, and
  others wait for it) -/
  | guard
  /-- the initialisation of `lastFrameTime` -/
  | init
  /-- `lastFrameTime` is read -/
  | read
  /-- `lastFrameTime` is assigned -/
  | write
  deriving Repr, DecidableEq

/-- The accesses of a step (SwerveTrajectoryGenerator.cpp:49-57, 276, 281; /repo/src/RustFFI.cpp:248-250); an event that
cannot happen in the current phase accesses nothing. -/
def Event.accesses (w : World D) : Event D → List Access
  | .cancel => [.flagStore]
  | .start g =>
    match (w.threads g).phase with
    | .idle | .returned _ | .threw => [.flagStore]
    | _ => []
  | .iterate g _ =>
    match (w.threads g).phase, w.lastFrame with
    | .solving, none => [.init, .guard]
    | .solving, some _ => [.guard]
    | _, _ => []
  | .checkRate g =>
    match (w.threads g).phase with
    | .clocked _ => [.read]
    | _ => []
  | .stamp g =>
    match (w.threads g).phase with
    | .passed _ => [.write]
    | _ => []
  | .poll g =>
    match (w.threads g).phase with
    | .polling => [.flagLoad]
    | _ => []
  | .tick _ | .readClock _ | .call _ _ | .throw _ | .finish _ _ _ => []

/-- The accesses of a schedule whose steps are taken by given threads of the process. -/
def World.trace (toMessage : Exit → String) (w : World D) : List (Nat × Event D) → List (Nat × List Access)
  | [] => []
  | (t, e) :: es => (t, e.accesses w) :: (w.step toMessage e).trace toMessage es

end Trajopt
