import Verif.Model.Wide
import Mathlib.Data.EReal.Inv

/-!
# Specification: arithmetic with infinities and NaN

The rules of IEEE 754 (without rounding and signed zeros), stated with the extended real numbers.
-/

set_option autoImplicit false

namespace Trajopt.Spec

/-- The extended real number, none for NaN. -/
noncomputable def ext : Wide → Option EReal
  | .nan => none
  | .inf negative => some (if negative then ⊥ else ⊤)
  | .fin r => some r

/-- Apply an operation unless an argument is NaN or the arguments are excluded. -/
noncomputable def op (excluded : EReal → EReal → Prop) (f : EReal → EReal → EReal) (a b : Option EReal) : Option EReal :=
  open Classical in
  match a, b with
  | some x, some y => if excluded x y then none else some (f x y)
  | _, _ => none

/-- An infinity. -/
def Endless (x : EReal) : Prop := x = ⊤ ∨ x = ⊥

/-- The quotient, also by (positive) zero. -/
noncomputable def quotient (x y : EReal) : EReal :=
  open Classical in
  if y = 0 then if 0 < x then ⊤ else ⊥ else x / y

end Trajopt.Spec
