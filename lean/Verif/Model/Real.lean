import Verif.Model.Problem
import Mathlib.Analysis.SpecialFunctions.Complex.Arg

/-!
# Real arithmetic

The reals as a scalar type.  Theorems in "real arithmetic" interpret `double` as `ℝ`.
-/

namespace Trajopt

/-- `double` and `Variable` values read as reals.  `atan2 y x` is the argument of `x + i y`
(`atan2 0 0 = 0`, as in C). `sign` is Sleipnir's: -1, 0 or 1. -/
noncomputable instance : Dbl ℝ where
  toAdd := inferInstance
  toSub := inferInstance
  toMul := inferInstance
  toDiv := inferInstance
  toNeg := inferInstance
  lit q := (q : ℝ)
  sin := Real.sin
  cos := Real.cos
  atan2 y x := Complex.arg ⟨x, y⟩
  hypot x y := Real.sqrt (x ^ 2 + y ^ 2)
  sign x := if x < 0 then -1 else if x = 0 then 0 else 1
  pi := Real.pi
  trunc x := if x < 0 then (⌈x⌉ : ℝ) else (⌊x⌋ : ℝ)
  abs x := |x|
  ofInt z := (z : ℝ)
  lt a b := decide (a < b)
  le a b := decide (a ≤ b)
  eq a b := decide (a = b)

section
variable (x y : ℝ)
@[simp] theorem real_add : @HAdd.hAdd ℝ ℝ ℝ (@instHAdd ℝ Num.toAdd) x y = x + y := rfl
@[simp] theorem real_sub : @HSub.hSub ℝ ℝ ℝ (@instHSub ℝ Num.toSub) x y = x - y := rfl
@[simp] theorem real_mul : @HMul.hMul ℝ ℝ ℝ (@instHMul ℝ Num.toMul) x y = x * y := rfl
@[simp] theorem real_div : @HDiv.hDiv ℝ ℝ ℝ (@instHDiv ℝ Num.toDiv) x y = x / y := rfl
@[simp] theorem real_neg : @Neg.neg ℝ Num.toNeg x = -x := rfl
@[simp] theorem real_lit (q : ℚ) : (Num.lit q : ℝ) = (q : ℝ) := rfl
@[simp] theorem real_sin : Num.sin x = Real.sin x := rfl
@[simp] theorem real_cos : Num.cos x = Real.cos x := rfl
@[simp] theorem real_atan2 : Num.atan2 y x = Complex.arg ⟨x, y⟩ := rfl
@[simp] theorem real_hypot : Num.hypot x y = Real.sqrt (x ^ 2 + y ^ 2) := rfl
theorem real_sign : Num.sign x = if x < 0 then (-1 : ℝ) else if x = 0 then 0 else 1 := rfl
@[simp] theorem real_pi : (Dbl.pi : ℝ) = Real.pi := rfl
theorem real_trunc : (Dbl.trunc x : ℝ) = if x < 0 then (⌈x⌉ : ℝ) else (⌊x⌋ : ℝ) := rfl
@[simp] theorem real_abs : (Dbl.abs x : ℝ) = |x| := rfl
@[simp] theorem real_ofInt (z : ℤ) : (Dbl.ofInt z : ℝ) = (z : ℝ) := rfl
@[simp] theorem real_ofNat (n : ℕ) : (Dbl.ofNat n : ℝ) = (n : ℝ) := by
  simp [Dbl.ofNat]
@[simp] theorem real_lt : (Dbl.lt x y) = decide (x < y) := rfl
@[simp] theorem real_le : (Dbl.le x y) = decide (x ≤ y) := rfl
@[simp] theorem real_eq : (Dbl.eq x y) = decide (x = y) := rfl
end

end Trajopt
