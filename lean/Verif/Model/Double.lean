import Verif.Model.Real
import Mathlib.Data.Int.Log
import Mathlib.Algebra.Order.Round
import Mathlib.Analysis.Real.Pi.Bounds

/-!
# Arithmetic on `double` with rounding

Every file of /repo that computes with user data computes with `double`.  `Arith` lists what is assumed
about it: the operations round the exact result, monotonically and with bounded error, and
small integers and 0.5 are exact.  IEEE binary64 with round-to-nearest-even satisfies this as long as
nothing overflows; `binary64` (`Lemmas/Double.lean`) is that instance.  Infinities, NaNs and signed zeros are not modelled.
`Doubles A` makes it a scalar, so that the same definitions that model the code run on it.
-/

set_option autoImplicit false

namespace Trajopt

/-- Rounded arithmetic. -/
structure Arith where
  /-- rounding -/
  rnd : ℝ → ℝ
  /-- relative error -/
  u : ℝ
  /-- absolute error (underflow) -/
  η : ℝ
  mono : Monotone rnd
  idem : ∀ x, rnd (rnd x) = rnd x
  symm : ∀ x, rnd (-x) = -rnd x
  error : ∀ x, |rnd x - x| ≤ u * |x| + η
  int : ∀ z : ℤ, |z| ≤ 2 ^ 53 → rnd z = z
  half : rnd (1 / 2) = 1 / 2
  u_nonneg : 0 ≤ u
  small : u ≤ 1 / 2 ^ 20
  tiny : η ≤ u
  /-- `std::sin` etc. before rounding to a `double` -/
  sin : ℝ → ℝ
  cos : ℝ → ℝ
  atan2 : ℝ → ℝ → ℝ
  hypot : ℝ → ℝ → ℝ
  /-- absolute error of sine and cosine -/
  ε : ℝ
  sin_error : ∀ x, |rnd (sin x) - Real.sin x| ≤ ε
  cos_error : ∀ x, |rnd (cos x) - Real.cos x| ≤ ε

/-- The values that are not changed by rounding. -/
def Doubles (A : Arith) : Type := {x : ℝ // A.rnd x = x}

namespace Doubles

variable {A : Arith}

/-- Value. -/
def val (x : Doubles A) : ℝ := x.1

/-- The double nearest to a real number. -/
def round (A : Arith) (x : ℝ) : Doubles A := ⟨A.rnd x, A.idem x⟩

/-- `double` (all of /repo): each operation is the exact one, rounded. -/
noncomputable instance : Dbl (Doubles A) where
  add a b := round A (a.val + b.val)
  sub a b := round A (a.val - b.val)
  mul a b := round A (a.val * b.val)
  div a b := round A (a.val / b.val)
  neg a := round A (-a.val)
  lit q := round A q
  sin a := round A (A.sin a.val)
  cos a := round A (A.cos a.val)
  atan2 a b := round A (A.atan2 a.val b.val)
  hypot a b := round A (A.hypot a.val b.val)
  sign a := round A (Num.sign a.val)
  pi := round A Real.pi
  trunc a := round A (Dbl.trunc a.val)
  abs a := round A |a.val|
  ofInt z := round A z
  lt a b := decide (a.val < b.val)
  le a b := decide (a.val ≤ b.val)
  eq a b := decide (a.val = b.val)

end Doubles

/-! ### binary64 -/

/-- Nearest integer, ties to even. -/
noncomputable def rne (x : ℝ) : ℤ :=
  if Int.fract x < 1 / 2 then ⌊x⌋
  else if 1 / 2 < Int.fract x then ⌊x⌋ + 1
  else if Even ⌊x⌋ then ⌊x⌋ else ⌊x⌋ + 1

/-- Exponent of the last bit of the doubles around `x`. -/
noncomputable def ulpExp (x : ℝ) : ℤ := max (Int.log 2 |x| - 52) (-1074)

/-- Round to the nearest IEEE binary64 number, ties to even; no overflow. -/
noncomputable def rnd64 (x : ℝ) : ℝ := rne (x / 2 ^ ulpExp x) * 2 ^ ulpExp x

end Trajopt
