import Verif.Lemmas.Double

/-!
# IEEE 754 binary64

`double` as the machine has it: 53 bits, gradual underflow, overflow to infinity, signed zeros, NaN, round to
nearest even.  C++ code as such is not modelled here; the model's functions are used with these scalars for
`double`.  Taken for granted: `std::sin`, `std::cos`, `std::atan2` and `std::hypot` are correctly rounded (C does not
promise this).
-/

set_option autoImplicit false

namespace Trajopt

/-- A `double`: NaN, an infinity, or a sign and a magnitude. -/
inductive Ieee where
  | nan
  | inf (negative : Bool)
  | fin (negative : Bool) (magnitude : ℝ)
    (isDouble : 0 ≤ magnitude ∧ rnd64 magnitude = magnitude ∧ magnitude < 2 ^ 1024)

namespace Ieee

theorem rnd64_abs (x : ℝ) : rnd64 |rnd64 x| = |rnd64 x| := by
  rcases abs_choice (rnd64 x) with h | h <;> rw [h]
  · exact rnd64_idem x
  · rw [rnd64_neg, rnd64_idem]

/-- The number with a sign and a magnitude. -/
def signed (negative : Bool) (magnitude : ℝ) : ℝ := if negative then -magnitude else magnitude

/-- The real value of a finite double, 0 otherwise. -/
def value : Ieee → ℝ
  | .fin s m _ => signed s m
  | _ => 0

open Classical in
/-- The nearest double; `zero` is the sign of an exact zero. -/
noncomputable def round (zero : Bool) (x : ℝ) : Ieee :=
  if h : |rnd64 x| < 2 ^ 1024 then
    .fin (if x = 0 then zero else decide (x < 0)) |rnd64 x| ⟨abs_nonneg _, rnd64_abs x, h⟩
  else .inf (decide (x < 0))

/-- Addition.  A sum that is exactly zero is positive, unless both are negative. -/
noncomputable def add : Ieee → Ieee → Ieee
  | .nan, _ => .nan
  | .inf _, .nan => .nan
  | .inf s, .inf t => if s = t then .inf s else .nan
  | .inf s, .fin _ _ _ => .inf s
  | .fin _ _ _, .nan => .nan
  | .fin _ _ _, .inf t => .inf t
  | .fin s a _, .fin t b _ => round (s && t) (signed s a + signed t b)

/-- Negation. -/
def neg : Ieee → Ieee
  | .nan => .nan
  | .inf s => .inf !s
  | .fin s a h => .fin (!s) a h

open Classical in
/-- Multiplication. -/
noncomputable def mul : Ieee → Ieee → Ieee
  | .nan, _ => .nan
  | .inf _, .nan => .nan
  | .inf s, .inf t => .inf (s != t)
  | .inf s, .fin t b _ => if b = 0 then .nan else .inf (s != t)
  | .fin _ _ _, .nan => .nan
  | .fin s a _, .inf t => if a = 0 then .nan else .inf (s != t)
  | .fin s a _, .fin t b _ => round (s != t) (signed s a * signed t b)

open Classical in
/-- Division. -/
noncomputable def div : Ieee → Ieee → Ieee
  | .nan, _ => .nan
  | .inf _, .nan => .nan
  | .inf _, .inf _ => .nan
  | .inf s, .fin t _ _ => .inf (s != t)
  | .fin _ _ _, .nan => .nan
  | .fin s _ _, .inf t => round (s != t) 0
  | .fin s a _, .fin t b _ =>
    if b = 0 then (if a = 0 then .nan else .inf (s != t))
    else round (s != t) (signed s a / signed t b)

/-- `std::sin`. -/
noncomputable def sin : Ieee → Ieee
  | .fin s a _ => round s (Real.sin (signed s a))
  | _ => .nan

/-- `std::cos`. -/
noncomputable def cos : Ieee → Ieee
  | .fin s a _ => round false (Real.cos (signed s a))
  | _ => .nan

/-- `std::hypot`: infinite if an argument is, even if the other is not a number. -/
noncomputable def hypot : Ieee → Ieee → Ieee
  | .inf _, _ => .inf false
  | _, .inf _ => .inf false
  | .nan, _ => .nan
  | _, .nan => .nan
  | .fin s a _, .fin t b _ => round false (Num.hypot (signed s a) (signed t b))

open Classical in
/-- `std::atan2(y, x)`. -/
noncomputable def atan2 : Ieee → Ieee → Ieee
  | .nan, _ => .nan
  | _, .nan => .nan
  | .inf s, .inf t => round s (signed s (if t then 3 * Real.pi / 4 else Real.pi / 4))
  | .inf s, .fin _ _ _ => round s (signed s (Real.pi / 2))
  | .fin s _ _, .inf t => round s (if t then signed s Real.pi else 0)
  | .fin s y _, .fin t x _ =>
    if y = 0 then round s (if t then signed s Real.pi else 0)
    else round s (Num.atan2 (signed s y) (signed t x))

/-- `a < b`, false for NaN. -/
noncomputable def lt : Ieee → Ieee → Bool
  | .nan, _ => false
  | _, .nan => false
  | .inf s, .inf t => s && !t
  | .inf s, .fin _ _ _ => s
  | .fin _ _ _, .inf t => !t
  | .fin s a _, .fin t b _ => decide (signed s a < signed t b)

/-- `a == b`, false for NaN; both zeros are equal. -/
noncomputable def eq : Ieee → Ieee → Bool
  | .inf s, .inf t => s == t
  | .fin s a _, .fin t b _ => decide (signed s a = signed t b)
  | _, _ => false

/-- `a <= b`, false for NaN. -/
noncomputable def le (a b : Ieee) : Bool := lt a b || eq a b

/-- Sleipnir's `sign`. -/
noncomputable def sign (a : Ieee) : Ieee :=
  if lt a (round false 0) then round false (-1) else if eq a (round false 0) then round false 0
  else round false 1

/-- `std::abs`. -/
def abs : Ieee → Ieee
  | .nan => .nan
  | .inf _ => .inf false
  | .fin _ a h => .fin false a h

/-- `std::trunc`. -/
noncomputable def trunc : Ieee → Ieee
  | .fin s a _ => round s (signed s ⌊a⌋)
  | a => a

end Ieee

/-- The operations of the code on `double`. -/
noncomputable instance : Dbl Ieee where
  add := Ieee.add
  sub a b := Ieee.add a (Ieee.neg b)
  mul := Ieee.mul
  div := Ieee.div
  neg := Ieee.neg
  lit q := Ieee.round false q
  sin := Ieee.sin
  cos := Ieee.cos
  atan2 := Ieee.atan2
  hypot := Ieee.hypot
  sign := Ieee.sign
  pi := Ieee.round false Real.pi
  trunc := Ieee.trunc
  abs := Ieee.abs
  ofInt z := Ieee.round false z
  lt := Ieee.lt
  le := Ieee.le
  eq := Ieee.eq

end Trajopt
