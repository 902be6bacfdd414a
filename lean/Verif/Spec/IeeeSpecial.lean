import Verif.Model.Ieee
import Verif.Spec.Extended

/-!
# Specification: what IEEE 754 and C say about doubles

A double is a number on the extended real line with a sign bit, or not a number.  Operations are those of the extended
real line, rounded to the nearest double, ties to even.  `op` and `Endless` are those of `Spec/Extended`.
-/

set_option autoImplicit false

namespace Trajopt.Spec

/-- A finite number of the format binary64, overflow aside: 53 bits, and nothing below `2 ^ -1074`. -/
def Binary64 (x : ℝ) : Prop := ∃ m e : ℤ, |m| < 2 ^ 53 ∧ -1074 ≤ e ∧ x = m * 2 ^ e

/-- `r` is `x` rounded to the nearest number of the format; in a tie, `r` is an even multiple of the distance to the
other candidate. -/
def RoundsTo (x r : ℝ) : Prop :=
  Binary64 r ∧ ∀ d, Binary64 d → |r - x| ≤ |d - x| ∧
    (|r - x| = |d - x| → d ≠ r → ∃ n : ℤ, r = 2 * n * |d - r|)

/-- The extended real number that a double is, if it is one. -/
noncomputable def number : Ieee → Option EReal
  | .nan => none
  | .inf s => some (if s then ⊥ else ⊤)
  | .fin s m _ => some ((if s then -m else m : ℝ) : EReal)

/-- The sign bit (of a NaN: unspecified). -/
def minus : Ieee → Bool
  | .nan => false
  | .inf s | .fin s _ _ => s

/-- `r` is `x` as a double: rounded, infinite if too large for the format. -/
def Rounded : EReal → EReal → Prop
  | ⊥, r => r = ⊥
  | ⊤, r => r = ⊤
  | (x : ℝ), r => ∃ y, RoundsTo x y ∧ (|y| < 2 ^ 1024 → r = y) ∧ (2 ^ 1024 ≤ y → r = ⊤) ∧ (y ≤ -2 ^ 1024 → r = ⊥)

/-- The double `a` is the exact result `x`, rounded; not a number if there is no result. -/
def Returns (x : Option EReal) (a : Ieee) : Prop :=
  match x, number a with
  | some x, some r => Rounded x r
  | none, none => True
  | _, _ => False

open Classical in
/-- The quotient `x / y` of the doubles `a` and `b`; by zero, an infinity with the sign of `a` times that of `b`. -/
noncomputable def ratio (a b : Ieee) (x y : EReal) : EReal :=
  if y = 0 then if minus a = minus b then ⊤ else ⊥ else x / y

/-- C's table for `atan2(y, x)`, for a `y` with positive sign: the angle if it is not that of the point `(x, y)`. -/
inductive SpecialAngle (y x : Ieee) : ℝ → Prop where
  | zeroBehind (h : number y = some 0) (h' : minus x = true) : SpecialAngle y x Real.pi
  | zeroAhead (h : number y = some 0) (h' : minus x = false) : SpecialAngle y x 0
  | up {v : ℝ} (h : number y = some ⊤) (h' : number x = some (v : EReal)) : SpecialAngle y x (Real.pi / 2)
  | upAhead (h : number y = some ⊤) (h' : number x = some ⊤) : SpecialAngle y x (Real.pi / 4)
  | upBehind (h : number y = some ⊤) (h' : number x = some ⊥) : SpecialAngle y x (3 * Real.pi / 4)
  | ahead {v : ℝ} (h : number y = some (v : EReal)) (h' : number x = some ⊤) : SpecialAngle y x 0
  | behind {v : ℝ} (h : number y = some (v : EReal)) (h' : number x = some ⊥) : SpecialAngle y x Real.pi

end Trajopt.Spec
