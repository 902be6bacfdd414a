import Verif.Model.Problem

/-!
# Geometry (/repo/include/trajopt/geometry)
-/

namespace Trajopt

variable {T : Type} {D : Type}

/-- `Rotation2<T>`: a rotation stored as cosine and sine
(/repo/include/trajopt/geometry/Rotation2.hpp:20-132). -/
structure Rotation2 (T : Type) where
  cos : T
  sin : T
  deriving Repr, DecidableEq

namespace Rotation2

/-- Default constructor (Rotation2.hpp:26, 130-131). -/
def zero [Num T] : Rotation2 T := ⟨Num.lit 1, Num.lit 0⟩

/-- `Rotation2(const T& angle)` (Rotation2.hpp:33-34). -/
def ofAngle [Num T] (angle : T) : Rotation2 T := ⟨Num.cos angle, Num.sin angle⟩

/-- `RotateBy` (Rotation2.hpp:92-97). -/
def rotateBy [Num T] (a other : Rotation2 T) : Rotation2 T :=
  ⟨a.cos * other.cos - a.sin * other.sin, a.cos * other.sin + a.sin * other.cos⟩

/-- `operator+` (Rotation2.hpp:61-63). -/
def add [Num T] (a other : Rotation2 T) : Rotation2 T := a.rotateBy other

/-- unary `operator-` (Rotation2.hpp:81-83). -/
def neg [Num T] (a : Rotation2 T) : Rotation2 T := ⟨a.cos, -a.sin⟩

/-- binary `operator-`: `*this + -other` (Rotation2.hpp:72-74). -/
def sub [Num T] (a other : Rotation2 T) : Rotation2 T := a.add other.neg

/-- `Radians()` (Rotation2.hpp:104). -/
def radians [Num T] (a : Rotation2 T) : T := Num.atan2 a.sin a.cos

/-- `Degrees()` (Rotation2.hpp:111-113); `std::numbers::pi` is a `double`, so the model restricts
this function to doubles. -/
def degrees [Dbl D] (a : Rotation2 D) : D := Num.atan2 a.sin a.cos / Dbl.pi * Num.lit 180

/-- The converting constructor `Rotation2<Variable>(const Rotation2<double>&)`
(Rotation2.hpp:50-52), also used for the implicit promotion of `double` operands. -/
def toV (a : Rotation2 D) : Rotation2 (Expr D) := ⟨.const a.cos, .const a.sin⟩

/-- `operator==(Rotation2<T>, Rotation2<U>)` (Rotation2.hpp:137-172).  `lVar`, `rVar` are
the two `if constexpr (std::same_as<…, sleipnir::Variable>)` tests; operands are already
promoted to `Variable`. -/
def eqCons [Dbl D] (lVar rVar : Bool) (l r : Rotation2 (Expr D)) : List (Con D) :=
  [.eq (l.cos * r.sin - l.sin * r.cos) (Num.lit 0)]
    ++ (if lVar then [.eq (l.cos * l.cos + l.sin * l.sin) (Num.lit 1)] else [])
    ++ (if rVar then [.eq (r.cos * r.cos + r.sin * r.sin) (Num.lit 1)] else [])

end Rotation2

/-- `Translation2<T>` (/repo/include/trajopt/geometry/Translation2.hpp:21-210). -/
structure Translation2 (T : Type) where
  x : T
  y : T
  deriving Repr, DecidableEq

namespace Translation2

/-- Default constructor (Translation2.hpp:27, 208-209). -/
def zero [Num T] : Translation2 T := ⟨Num.lit 0, Num.lit 0⟩

/-- Polar constructor (Translation2.hpp:47-49). -/
def ofPolar [Num T] (distance : T) (angle : Rotation2 T) : Translation2 T :=
  ⟨distance * angle.cos, distance * angle.sin⟩

/-- `operator+` (Translation2.hpp:81-85). -/
def add [Num T] (a other : Translation2 T) : Translation2 T := ⟨a.x + other.x, a.y + other.y⟩

/-- unary `operator-` (Translation2.hpp:106). -/
def neg [Num T] (a : Translation2 T) : Translation2 T := ⟨-a.x, -a.y⟩

/-- binary `operator-`: `*this + -other` (Translation2.hpp:93-96). -/
def sub [Num T] (a other : Translation2 T) : Translation2 T := a.add other.neg

/-- `operator*` by a scalar (Translation2.hpp:115-119). -/
def smul [Num T] (a : Translation2 T) (s : T) : Translation2 T := ⟨a.x * s, a.y * s⟩

/-- `operator/` by a scalar (Translation2.hpp:128-132). -/
def sdiv [Num T] (a : Translation2 T) (s : T) : Translation2 T := ⟨a.x / s, a.y / s⟩

/-- `RotateBy` (Translation2.hpp:140-145). -/
def rotateBy [Num T] (a : Translation2 T) (other : Rotation2 T) : Translation2 T :=
  ⟨a.x * other.cos - a.y * other.sin, a.x * other.sin + a.y * other.cos⟩

/-- `Angle()` (Translation2.hpp:152). -/
def angle (a : Translation2 T) : Rotation2 T := ⟨a.x, a.y⟩

/-- `Dot` (Translation2.hpp:160-164). -/
def dot [Num T] (a other : Translation2 T) : T := a.x * other.x + a.y * other.y

/-- `Cross` (Translation2.hpp:172-176). -/
def cross [Num T] (a other : Translation2 T) : T := a.x * other.y - a.y * other.x

/-- `Norm` (Translation2.hpp:184). -/
def norm [Num T] (a : Translation2 T) : T := Num.hypot a.x a.y

/-- `SquaredNorm` (Translation2.hpp:192). -/
def squaredNorm [Num T] (a : Translation2 T) : T := a.x * a.x + a.y * a.y

/-- `Distance` (Translation2.hpp:203-205). -/
def distance [Num T] (a other : Translation2 T) : T := Num.hypot (other.x - a.x) (other.y - a.y)

/-- Structured binding `get<I>` (Translation2.hpp:212-219). -/
def get (i : Nat) (a : Translation2 T) : T := if i = 0 then a.x else a.y

/-- Promotion of a `Translation2<double>` to `Translation2<Variable>` (the mixed-type operators of
Translation2.hpp compute in `decltype(T + U)`; the model promotes operands first). -/
def toV (a : Translation2 D) : Translation2 (Expr D) := ⟨.const a.x, .const a.y⟩

/-- `operator==(Translation2<T>, Translation2<U>)`: entrywise equality of the two column
matrices (Translation2.hpp:224-231). -/
def eqCons (l r : Translation2 (Expr D)) : List (Con D) := [.eq l.x r.x, .eq l.y r.y]

end Translation2

/-- `Pose2<T>` (/repo/include/trajopt/geometry/Pose2.hpp:20-99). -/
structure Pose2 (T : Type) where
  translation : Translation2 T
  rotation : Rotation2 T
  deriving Repr, DecidableEq

namespace Pose2

/-- Default constructor (Pose2.hpp:25). -/
def zero [Num T] : Pose2 T := ⟨.zero, .zero⟩

/-- `Pose2(T x, T y, Rotation2<T> rotation)` with the implicit `Rotation2(angle)` conversion
(Pose2.hpp:45-47, Rotation2.hpp:33). -/
def ofXYHeading [Num T] (x y heading : T) : Pose2 T := ⟨⟨x, y⟩, .ofAngle heading⟩

/-- `X()`, (Pose2.hpp:70). -/
def x (p : Pose2 T) : T := p.translation.x

/-- `Y()`, (Pose2.hpp:77). -/
def y (p : Pose2 T) : T := p.translation.y

/-- `RotateBy` (Pose2.hpp:92-94). -/
def rotateBy [Num T] (p : Pose2 T) (other : Rotation2 T) : Pose2 T :=
  ⟨p.translation.rotateBy other, p.rotation.rotateBy other⟩

/-- Converting constructor `Pose2<Variable>(const Pose2<double>&)` (Pose2.hpp:54-56). -/
def toV (p : Pose2 D) : Pose2 (Expr D) := ⟨p.translation.toV, p.rotation.toV⟩

/-- `operator==(Pose2<Variable>, Pose2<double>)` (Pose2.hpp:104-110), the only instantiation used
(PoseEqualityConstraint.hpp:44). -/
def eqCons [Dbl D] (l : Pose2 (Expr D)) (r : Pose2 D) : List (Con D) :=
  l.translation.eqCons r.translation.toV ++ Rotation2.eqCons true false l.rotation r.rotation.toV

end Pose2

end Trajopt
