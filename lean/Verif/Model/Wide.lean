import Verif.Model.Real

/-!
# Infinities and NaN

The scalars of IEEE 754 without rounding and without signed zeros: real numbers, two infinities, "not a
number".  C++ code as such is not modelled here; the model's functions are used with these scalars for
`double` and for the values of `sleipnir::Variable`.
-/

namespace Trajopt

/-- A double, its finite values being exact. -/
inductive Wide where
  | nan
  | inf (negative : Bool)
  | fin (r : ℝ)

namespace Wide

open Classical in
/-- Is the number below zero? -/
noncomputable def below (r : ℝ) : Bool := decide (r < 0)

/-- IEEE 754 addition. -/
noncomputable def add : Wide → Wide → Wide
  | .nan, _ => .nan
  | .inf _, .nan => .nan
  | .inf s, .inf t => if s = t then .inf s else .nan
  | .inf s, .fin _ => .inf s
  | .fin _, .nan => .nan
  | .fin _, .inf t => .inf t
  | .fin a, .fin b => .fin (a + b)

/-- IEEE 754 negation. -/
noncomputable def neg : Wide → Wide
  | .nan => .nan
  | .inf s => .inf !s
  | .fin a => .fin (-a)

open Classical in
/-- IEEE 754 multiplication: infinity times zero is not a number. -/
noncomputable def mul : Wide → Wide → Wide
  | .nan, _ => .nan
  | .inf _, .nan => .nan
  | .inf s, .inf t => .inf (s != t)
  | .inf s, .fin b => if b = 0 then .nan else .inf (s != below b)
  | .fin _, .nan => .nan
  | .fin a, .inf t => if a = 0 then .nan else .inf (below a != t)
  | .fin a, .fin b => .fin (a * b)

open Classical in
/-- IEEE 754 division; every zero is positive. -/
noncomputable def div : Wide → Wide → Wide
  | .nan, _ => .nan
  | .inf _, .nan => .nan
  | .inf _, .inf _ => .nan
  | .inf s, .fin b => .inf (s != below b)
  | .fin _, .nan => .nan
  | .fin _, .inf _ => .fin 0
  | .fin a, .fin b => if b = 0 then (if a = 0 then .nan else .inf (below a)) else .fin (a / b)

/-- A function of one real number that has no value at infinity. -/
noncomputable def lift (f : ℝ → ℝ) : Wide → Wide
  | .fin a => .fin (f a)
  | _ => .nan

/-- `std::hypot`: infinite if an argument is, even if the other is not a number. -/
noncomputable def hypot : Wide → Wide → Wide
  | .inf _, _ => .inf false
  | _, .inf _ => .inf false
  | .nan, _ => .nan
  | _, .nan => .nan
  | .fin a, .fin b => .fin (Num.hypot a b)

/-- `std::atan2(y, x)`. -/
noncomputable def atan2 : Wide → Wide → Wide
  | .nan, _ => .nan
  | _, .nan => .nan
  | .inf s, .inf t => .fin ((if s then -1 else 1) * (if t then 3 * Real.pi / 4 else Real.pi / 4))
  | .inf s, .fin _ => .fin ((if s then -1 else 1) * (Real.pi / 2))
  | .fin y, .inf t => .fin (if t then (if below y then -Real.pi else Real.pi) else 0)
  | .fin y, .fin x => .fin (Num.atan2 y x)

open Classical in
/-- Sleipnir's `sign`: 1 unless the argument is below or equal to zero, so also for NaN. -/
noncomputable def sign : Wide → Wide
  | .nan => .fin 1
  | .inf s => .fin (if s then -1 else 1)
  | .fin a => .fin (Num.sign a)

open Classical in
/-- `a < b`, false for NaN. -/
noncomputable def lt : Wide → Wide → Bool
  | .nan, _ => false
  | _, .nan => false
  | .inf s, .inf t => s && !t
  | .inf s, .fin _ => s
  | .fin _, .inf t => !t
  | .fin a, .fin b => decide (a < b)

open Classical in
/-- `a == b`, false for NaN. -/
noncomputable def eq : Wide → Wide → Bool
  | .inf s, .inf t => s == t
  | .fin a, .fin b => decide (a = b)
  | _, _ => false

/-- `a <= b`, false for NaN. -/
noncomputable def le (a b : Wide) : Bool := lt a b || eq a b

/-- `std::abs`. -/
noncomputable def abs : Wide → Wide
  | .nan => .nan
  | .inf _ => .inf false
  | .fin a => .fin |a|

/-- `std::trunc`. -/
noncomputable def trunc : Wide → Wide
  | .fin a => .fin (Dbl.trunc a)
  | a => a

end Wide

/-- The operations of the code with infinities and NaN. -/
noncomputable instance : Dbl Wide where
  add := Wide.add
  sub a b := Wide.add a (Wide.neg b)
  mul := Wide.mul
  div := Wide.div
  neg := Wide.neg
  lit q := .fin q
  sin := Wide.lift Real.sin
  cos := Wide.lift Real.cos
  atan2 := Wide.atan2
  hypot := Wide.hypot
  sign := Wide.sign
  pi := .fin Real.pi
  trunc := Wide.trunc
  abs := Wide.abs
  ofInt z := .fin z
  lt := Wide.lt
  le := Wide.le
  eq := Wide.eq

end Trajopt
