/-!
# Scalars

The C++ code is generic in the scalar: `double` for user data and `sleipnir::Variable` for decision
variables.  `Num` lists the operations the geometry code uses on either, `Dbl` the further
ones used on `double` only.  Neither class has any law, so a theorem proved for every `Dbl D` holds
for IEEE doubles as much as for the reals.
-/

namespace Trajopt

/-- Operations used on both `double` and `sleipnir::Variable`
(/repo/include/trajopt/geometry/Rotation2.hpp, Translation2.hpp,
/repo/include/trajopt/constraint/detail/LinePointDistance.hpp). -/
class Num (T : Type) extends Add T, Sub T, Mul T, Div T, Neg T where
  /-- a literal such as `0.5` -/
  lit : Rat → T
  sin : T → T
  cos : T → T
  /-- `atan2(y, x)` -/
  atan2 : T → T → T
  hypot : T → T → T
  /-- `sleipnir::sign` -/
  sign : T → T

/-- Operations used on `double` only (/repo/include/trajopt/util/TrajoptUtil.hpp,
/repo/src/SwerveTrajectoryGenerator.cpp:108-122). -/
class Dbl (D : Type) extends Num D where
  /-- `std::numbers::pi` -/
  pi : D
  trunc : D → D
  abs : D → D
  /-- conversion from an integer type -/
  ofInt : Int → D
  /-- `a < b` -/
  lt : D → D → Bool
  /-- `a <= b` -/
  le : D → D → Bool
  /-- `a == b` -/
  eq : D → D → Bool

/-- Conversion `size_t → double`. -/
def Dbl.ofNat {D : Type} [Dbl D] (n : Nat) : D := Dbl.ofInt (n : Int)

/-- `std::min(a, b)`: `(b < a) ? b : a` (/repo/src/SwerveTrajectoryGenerator.cpp:112). -/
def Dbl.min {D : Type} [Dbl D] (a b : D) : D := if Dbl.lt b a then b else a

/-- Machine doubles, used only to execute the model (`Verif/Tests.lean`); no theorem mentions
this instance. -/
instance : Dbl Float where
  lit q := Float.ofInt q.num / Float.ofInt q.den
  sin := Float.sin
  cos := Float.cos
  atan2 := Float.atan2
  hypot a b := Float.sqrt (a * a + b * b)
  sign x := if x < 0 then -1 else if x == 0 then 0 else 1
  pi := 3.14159265358979323846
  trunc x := if x < 0 then x.ceil else x.floor
  abs := Float.abs
  ofInt := Float.ofInt
  lt a b := decide (a < b)
  le a b := decide (a ≤ b)
  eq a b := a == b

end Trajopt
