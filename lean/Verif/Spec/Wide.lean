import Verif.Model.Wide
import Verif.Spec.RoundingPath

/-!
# Specification: paths and drivetrains with infinities and NaN

Constants of the problem and values of decision variables are IEEE doubles without rounding
(`Wide`).  Sleipnir is taken to store a constraint `a ≥ b` as the expression `a - b`, to
evaluate it operation by operation, and to call it satisfied when the value is at least zero.
-/

set_option autoImplicit false

namespace Trajopt

/-- Value of an expression, the decision variables having the values `σ`. -/
def Expr.value {D : Type} [Dbl D] (σ : ℕ → D) : Expr D → D
  | .const d => d
  | .var i => σ i
  | .add a b => a.value σ + b.value σ
  | .sub a b => a.value σ - b.value σ
  | .mul a b => a.value σ * b.value σ
  | .div a b => a.value σ / b.value σ
  | .neg a => -a.value σ
  | .sin a => Num.sin (a.value σ)
  | .cos a => Num.cos (a.value σ)
  | .atan2 a b => Num.atan2 (a.value σ) (b.value σ)
  | .hypot a b => Num.hypot (a.value σ) (b.value σ)
  | .sign a => Num.sign (a.value σ)

/-- At least zero, which NaN is not. -/
def Wide.Nonneg : Wide → Prop
  | .nan => False
  | .inf negative => negative = false
  | .fin r => 0 ≤ r

/-- The values `σ` satisfy the constraint. -/
def Con.Test (σ : ℕ → Wide) : Con Wide → Prop
  | .eq a b => a.value σ - b.value σ = .fin 0
  | .le a b => (b.value σ - a.value σ).Nonneg
  | .ge a b => (a.value σ - b.value σ).Nonneg
  | .leInf a => (.inf false - a.value σ : Wide).Nonneg

/-- Finite values. -/
def finite (σ : ℕ → ℝ) (v : ℕ) : Wide := .fin (σ v)

/-- A finite point. -/
def Translation2.wide (p : Translation2 ℝ) : Translation2 Wide := ⟨.fin p.x, .fin p.y⟩

/-- A constraint with finite data. -/
def Constraint.wide : Constraint ℝ → Constraint Wide
  | .angularVelocityMaxMagnitude m => .angularVelocityMaxMagnitude (.fin m)
  | .linePoint a b p d => .linePoint a.wide b.wide p.wide (.fin d)
  | .linearAccelerationMaxMagnitude m => .linearAccelerationMaxMagnitude (.fin m)
  | .linearVelocityDirection a => .linearVelocityDirection (.fin a)
  | .linearVelocityMaxMagnitude m => .linearVelocityMaxMagnitude (.fin m)
  | .pointAt p t => .pointAt p.wide (.fin t)
  | .pointLine r a b d => .pointLine r.wide a.wide b.wide (.fin d)
  | .pointPoint r p d => .pointPoint r.wide p.wide (.fin d)
  | .poseEquality x y h => .poseEquality (.fin x) (.fin y) (.fin h)
  | .translationEquality p => .translationEquality p.wide

/-- A drivetrain with finite data. -/
def SwerveDrivetrain.wide (dr : SwerveDrivetrain ℝ) : SwerveDrivetrain Wide where
  mass := .fin dr.mass
  moi := .fin dr.moi
  modules := dr.modules.map fun m =>
    ⟨m.translation.wide, .fin m.wheelRadius, .fin m.wheelMaxAngularVelocity, .fin m.wheelMaxTorque⟩

/-- The numbers a point consists of. -/
def Translation2.data {D : Type} (p : Translation2 D) : List D := [p.x, p.y]

/-- The numbers a constraint consists of. -/
def Constraint.data {D : Type} : Constraint D → List D
  | .angularVelocityMaxMagnitude m => [m]
  | .linePoint a b p d => d :: (a.data ++ b.data ++ p.data)
  | .linearAccelerationMaxMagnitude m => [m]
  | .linearVelocityDirection a => [a]
  | .linearVelocityMaxMagnitude m => [m]
  | .pointAt p t => t :: p.data
  | .pointLine r a b d => d :: (r.data ++ a.data ++ b.data)
  | .pointPoint r p d => d :: (r.data ++ p.data)
  | .poseEquality x y h => [x, y, h]
  | .translationEquality p => p.data

/-- The numbers a drivetrain consists of. -/
def SwerveDrivetrain.data {D : Type} (dr : SwerveDrivetrain D) : List D :=
  dr.mass :: dr.moi :: dr.modules.flatMap fun m =>
    [m.wheelRadius, m.wheelMaxAngularVelocity, m.wheelMaxTorque] ++ m.translation.data

namespace Spec

/-- Sign of an infinity. -/
def sgn (negative : Bool) : ℝ := if negative then -1 else 1

/-- `x` is within the limit, of which the sign does not matter. -/
def Within (limit : Wide) (x : ℝ) : Prop :=
  match limit with
  | .nan => False
  | .inf _ => True
  | .fin m => x ≤ |m|

/-- The coordinate is finite, or infinite in the direction of `h`. -/
def Toward (h : ℝ) : Wide → Prop
  | .nan => False
  | .inf n => 0 < sgn n * h
  | .fin _ => True

/-- The coordinate is finite, or infinite in the direction opposite to `k`, which is not zero. -/
def Away (k : ℝ) (x : Wide) : Prop := k ≠ 0 ∧ Toward (-k) x

/-- What constraints with infinite data require. -/
def InfiniteMeaning (c : Constraint Wide) (s : State) : Prop :=
  match c with
  | .angularVelocityMaxMagnitude (.inf false) => True
  | .linearAccelerationMaxMagnitude (.inf _) => True
  | .linearVelocityMaxMagnitude (.inf _) => True
  | .pointAt p (.fin tol) => Real.cos tol < 0 ∧ Toward s.heading.re p.x ∧ Toward s.heading.im p.y ∧
      ∀ q : Translation2 ℝ, p ≠ q.wide
  | .pointPoint ⟨.fin _, .fin _⟩ p (.fin _) => p.x ≠ .nan ∧ p.y ≠ .nan ∧
      ∀ q : Translation2 ℝ, p ≠ q.wide
  | .pointPoint ⟨.inf n, .fin _⟩ p (.fin _) =>
      Away (sgn n * s.heading.re) p.x ∧ Away (sgn n * s.heading.im) p.y
  | .pointPoint ⟨.fin _, .inf n⟩ p (.fin _) =>
      Away (-sgn n * s.heading.im) p.x ∧ Away (sgn n * s.heading.re) p.y
  | _ => False

/-- What a constraint requires of a (finite) state. -/
def MeaningW (c : Constraint Wide) (s : State) : Prop :=
  (∃ c₀ : Constraint ℝ, c = c₀.wide ∧ Meaning c₀ s) ∨ InfiniteMeaning c s

/-- `m₀` is a module at the same place with finite limits, no larger than those of `m`. -/
structure Weaker (m₀ : SwerveModule ℝ) (m : SwerveModule Wide) : Prop where
  place : m.translation = m₀.translation.wide
  speed : Within (m.wheelRadius * m.wheelMaxAngularVelocity) (maxSpeed m₀)
  force : Within (m.wheelMaxTorque / m.wheelRadius) (maxForce m₀)

/-- The state is possible for some drivetrain with finite, no larger limits. -/
def DynamicsW (dr : SwerveDrivetrain Wide) (s : State) (F : ℕ → ℂ) : Prop :=
  ∃ dr₀ : SwerveDrivetrain ℝ, dr.mass = .fin dr₀.mass ∧ dr.moi = .fin dr₀.moi ∧
    List.Forall₂ Weaker dr₀.modules dr.modules ∧ Dynamics dr₀ s F

/-- `g` is a nonzero coordinate difference between two modules listed one after the other. -/
def GapW (dr : SwerveDrivetrain Wide) (g : ℝ) : Prop :=
  g ≠ 0 ∧ ∃ a b, (a, b) ∈ dr.modules.zip dr.modules.tail ∧ ∃ p q : Translation2 ℝ,
    a.translation = p.wide ∧ b.translation = q.wide ∧ (g = |p.x - q.x| ∨ g = |p.y - q.y|)

/-- The step cap, for finite positions of the modules: the distance a wheel travels at full speed is a
number or minus infinity, and at most each gap. -/
def StepW (dr : SwerveDrivetrain Wide) (dt : ℝ) : Prop :=
  ∀ m ∈ dr.modules, .fin dt * m.wheelRadius * m.wheelMaxAngularVelocity = Wide.inf true ∨
    ∃ x, .fin dt * m.wheelRadius * m.wheelMaxAngularVelocity = Wide.fin x ∧ ∀ g, GapW dr g → x ≤ g

/-- The trajectory obeys path and drivetrain. -/
def ObeysW (t : PathTable Wide) (dr : SwerveDrivetrain Wide) (T : Traj) : Prop :=
  ObeysWith t (StepW dr) (DynamicsW dr) MeaningW T

end Spec

end Trajopt
