import Verif.Model.Generator

/-!
# `Generate`, progress callbacks and cancellation

A process is a world in which any number of generators run `Generate`, each on its own thread.
One step is one access to shared state (the cancellation flag, the function-local
`lastFrameTime`, the clock) or one callback; steps of different threads interleave arbitrarily.
What the solver does between callbacks (the values it gives the decision variables, its
exit code, when it ends) is chosen by the events.

Simplifications: `lastFrameTime` is not atomic, so that two threads accessing it at once is undefined
behaviour in C++; here reads and writes are interleaved instead (`Model/Access` says which schedules race).  An exception thrown by a callback
is taken to leave `Solve` without further effects there (nothing in /repo catches it).
-/

namespace Trajopt

variable {D : Type}

/-- `sleipnir::SolverExitCondition`, as far as the code looks at it
(/repo/src/SwerveTrajectoryGenerator.cpp:287-289). -/
inductive Exit where
  | callbackRequestedStop
  /-- any other, by its integer code -/
  | other (code : Int)
  deriving Repr, DecidableEq

/-- `static_cast<int>(status.exitCondition)` (SwerveTrajectoryGenerator.cpp:287).  2 is Sleipnir's
`kCallbackRequestedStop`, which is not in /repo. -/
def Exit.toInt : Exit → Int
  | .callbackRequestedStop => 2
  | .other c => c

/-- Result of `Generate`: `expected<SwerveSolution, std::string>`. -/
abbrev GenResult (D : Type) := Except String (SwerveSolution D)

/-- The end of `Generate`, after `Solve` returned (SwerveTrajectoryGenerator.cpp:287-293).
`toMessage` is `sleipnir::ToMessage`. -/
def Generator.conclude (toMessage : Exit → String) (exit : Exit) (g : Generator D) :
    Res (GenResult D) :=
  if exit.toInt < 0 ∨ exit = .callbackRequestedStop then .ok (.error (toMessage exit))
  else
    match g.constructSwerveSolution with
    | .ok sol => .ok (.ok sol)
    | .error f => .error f

/-- Where a thread is in `Generate` (SwerveTrajectoryGenerator.cpp:274-294) and in the callback
installed by the constructor (45-62). -/
inductive Phase (D : Type) where
  /-- `Generate` has not been called -/
  | idle
  /-- in `Solve`, between callbacks -/
  | solving
  /-- in the callback, `lastFrameTime` initialised (50) -/
  | entered
  /-- `now` read (51) -/
  | clocked (now : Nat)
  /-- not returned early (52) -/
  | passed (now : Nat)
  /-- calling the user's callbacks (58-61), `rest` still to be called -/
  | calling (soln : SwerveSolution D) (rest : List Nat)
  /-- about to read the cancellation flag (281) -/
  | polling
  /-- `Generate` has returned -/
  | returned (r : GenResult D)
  /-- an exception thrown by a user's callback has left `Generate`: nothing on the way (45-62,
  277-285) catches it -/
  | threw
  /-- undefined behaviour or an exception -/
  | crashed (f : Fault)

/-- A call of a user's callback: which generator, which callback, with what. -/
structure Call (D : Type) where
  gen : Nat
  callback : Nat
  soln : SwerveSolution D
  handle : Int

/-- A round of callbacks: when (its `now`), by which generator, with what. -/
structure Round (D : Type) where
  time : Nat
  gen : Nat
  soln : SwerveSolution D

/-- A generator and its thread. -/
structure Thread (D : Type) where
  generator : Generator D
  phase : Phase D := .idle

/-- The process.  `flag` is `GetCancellationFlag()` (/repo/src/util/Cancellation.cpp:7-10),
`lastFrame` the static `lastFrameTime` (SwerveTrajectoryGenerator.cpp:50; `none` before its
initialisation), `clock` the steady clock in nanoseconds.  `calls` and `rounds` record what
happened, oldest first. -/
structure World (D : Type) where
  flag : Int := 0
  lastFrame : Option Nat := none
  clock : Nat := 0
  threads : Nat → Thread D
  calls : List (Call D) := []
  rounds : List (Round D) := []

/-- What can happen next. -/
inductive Event (D : Type) where
  /-- time passes -/
  | tick (ns : Nat)
  /-- `cancel_all()` (/repo/src/RustFFI.cpp:248-250) -/
  | cancel
  /-- `Generate` is called on generator `g` -/
  | start (g : Nat)
  /-- the solver of `g` finishes an iteration with these variable values and calls back -/
  | iterate (g : Nat) (values : Nat → D)
  | readClock (g : Nat)
  | checkRate (g : Nat)
  | stamp (g : Nat)
  /-- the next user callback is called; it gets a `SwerveSolution&`, which it may change
  (/repo/include/trajopt/path/Path.hpp:39-41) -/
  | call (g : Nat) (edit : SwerveSolution D → SwerveSolution D)
  /-- the next user callback is called and throws -/
  | throw (g : Nat)
  | poll (g : Nat)
  /-- the solver of `g` ends by itself with this code (not 2) and these values -/
  | finish (g : Nat) (code : Int) (values : Nat → D)

/-- Replace thread `g`. -/
def World.set (w : World D) (g : Nat) (t : Thread D) : World D :=
  { w with threads := fun h => if h = g then t else w.threads h }

/-- The solver writes the decision variables. -/
def Generator.withValues (g : Generator D) (values : Nat → D) : Generator D :=
  { g with problem := { g.problem with values := values } }

/-- `now - lastFrameTime < timePerFrame` (SwerveTrajectoryGenerator.cpp:46-47, 52), clock in
nanoseconds.  The code compares as `double`; no whole number of nanoseconds is near enough to 1/60 s
for rounding to matter. -/
def tooSoon (now last : Nat) : Bool := decide (60 * ((now : Int) - last) < 10 ^ 9)

/-- One step.  Events that cannot happen in the current phase do nothing. -/
def World.step (toMessage : Exit → String) (w : World D) : Event D → World D
  | .tick ns => { w with clock := w.clock + ns }
  | .cancel => { w with flag := 1 }
  | .start g =>
    -- `GetCancellationFlag() = 0`, then `Solve` (SwerveTrajectoryGenerator.cpp:276-285)
    match (w.threads g).phase with
    | .idle | .returned _ | .threw =>
      { w.set g { w.threads g with phase := .solving } with flag := 0 }
    | _ => w
  | .iterate g values =>
    match (w.threads g).phase with
    | .solving =>
      { w.set g { generator := (w.threads g).generator.withValues values, phase := .entered } with
        lastFrame := match w.lastFrame with
          | none => some w.clock
          | some t => some t }
    | _ => w
  | .readClock g =>
    match (w.threads g).phase with
    | .entered => w.set g { w.threads g with phase := .clocked w.clock }
    | _ => w
  | .checkRate g =>
    match (w.threads g).phase, w.lastFrame with
    | .clocked now, some last =>
      w.set g { w.threads g with phase := if tooSoon now last then .polling else .passed now }
    | _, _ => w
  | .stamp g =>
    -- `lastFrameTime = now; auto soln = ConstructSwerveSolution();` (56-58)
    match (w.threads g).phase with
    | .passed now =>
      match (w.threads g).generator.constructSwerveSolution with
      | .ok soln =>
        { w.set g { w.threads g with
            phase := .calling soln (w.threads g).generator.path.callbacks } with
          lastFrame := some now
          rounds := w.rounds ++ [⟨now, g, soln⟩] }
      | .error f => { w.set g { w.threads g with phase := .crashed f } with lastFrame := some now }
    | _ => w
  | .call g edit =>
    match (w.threads g).phase with
    | .calling soln (c :: rest) =>
      { w.set g { w.threads g with phase := .calling (edit soln) rest } with
        calls := w.calls ++ [⟨g, c, soln, (w.threads g).generator.handle⟩] }
    | .calling _ [] => w.set g { w.threads g with phase := .polling }
    | _ => w
  | .throw g =>
    match (w.threads g).phase with
    | .calling soln (c :: _) =>
      { w.set g { w.threads g with phase := .threw } with
        calls := w.calls ++ [⟨g, c, soln, (w.threads g).generator.handle⟩] }
    | _ => w
  | .poll g =>
    -- `return GetCancellationFlag()`: nonzero is true, and makes `Solve` stop
    match (w.threads g).phase with
    | .polling =>
      if w.flag ≠ 0 then
        match (w.threads g).generator.conclude toMessage .callbackRequestedStop with
        | .ok r => w.set g { w.threads g with phase := .returned r }
        | .error f => w.set g { w.threads g with phase := .crashed f }
      else w.set g { w.threads g with phase := .solving }
    | _ => w
  | .finish g code values =>
    match (w.threads g).phase with
    | .solving =>
      match ((w.threads g).generator.withValues values).conclude toMessage (.other code) with
      | .ok r => w.set g { generator := (w.threads g).generator.withValues values,
                           phase := .returned r }
      | .error f => w.set g { generator := (w.threads g).generator.withValues values,
                              phase := .crashed f }
    | _ => w

/-- A schedule. -/
def World.run (toMessage : Exit → String) (w : World D) (es : List (Event D)) : World D :=
  es.foldl (World.step toMessage) w

/-- A process in which nothing has happened yet. -/
def World.new (gens : Nat → Generator D) : World D := { threads := fun g => { generator := gens g } }

end Trajopt
