/-!
# Machine-level base of the model

Faults, `std::vector` accesses and integer conversions used by every other part of the model.
-/

namespace Trajopt

/-- How a call can end other than by returning.  `outOfRange`: `std::out_of_range` thrown by
`std::vector::at`.  `assertFailed`: an `assert` fails (debug builds).  `ub`: undefined behaviour
(unchecked `operator[]`, `front()`/`back()` on an empty vector, integer division by zero, reading
an uninitialised `double`). -/
inductive Fault where
  | outOfRange
  | assertFailed
  | ub
  deriving DecidableEq, Repr

/-- Result of a computation that may fault. -/
abbrev Res (α : Type) := Except Fault α

/-- `std::vector::at(i)`: bounds checked (used throughout /repo/src and /repo/include). -/
def vat {α : Type} (l : List α) (i : Nat) : Res α :=
  match l[i]? with
  | some a => .ok a
  | none => .error .outOfRange

/-- `std::vector::operator[](i)`: not bounds checked
(e.g. /repo/src/SwerveTrajectoryGenerator.cpp:300). -/
def vidx {α : Type} (l : List α) (i : Nat) : Res α :=
  match l[i]? with
  | some a => .ok a
  | none => .error .ub

/-- `std::vector::front()`: undefined on an empty vector
(/repo/include/trajopt/util/GenerateLinearInitialGuess.hpp:33). -/
def vfront {α : Type} (l : List α) : Res α :=
  match l.head? with
  | some a => .ok a
  | none => .error .ub

/-- `std::vector::back()`: undefined on an empty vector
(/repo/include/trajopt/util/GenerateLinearInitialGuess.hpp:50). -/
def vback {α : Type} (l : List α) : Res α :=
  match l.getLast? with
  | some a => .ok a
  | none => .error .ub

/-- `size_t` addition (64 bit, wraps). -/
def wadd (a b : Nat) : Nat := (a + b) % 2 ^ 64

/-- `size_t` subtraction (64 bit, wraps), e.g. `path.waypoints.size() - 1` with no waypoints. -/
def wsub (a b : Nat) : Nat := (a + 2 ^ 64 - b % 2 ^ 64) % 2 ^ 64

/-- Conversion `size_t → int64_t` (/repo/src/path/SwervePathBuilder.cpp:202-203). -/
def toInt64 (n : Nat) : Int :=
  if n % 2 ^ 64 < 2 ^ 63 then ((n % 2 ^ 64 : Nat) : Int) else ((n % 2 ^ 64 : Nat) : Int) - 2 ^ 64

/-- Conversion `static_cast<int>(size_t)` (/repo/src/SwerveTrajectoryGenerator.cpp:138). -/
def toInt32 (n : Nat) : Int :=
  if n % 2 ^ 32 < 2 ^ 31 then ((n % 2 ^ 32 : Nat) : Int) else ((n % 2 ^ 32 : Nat) : Int) - 2 ^ 32

end Trajopt
