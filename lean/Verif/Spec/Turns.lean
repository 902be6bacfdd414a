import Verif.Spec.Watch

/-!
# Specification for C128: headings and full turns
-/

set_option autoImplicit false

namespace Trajopt.Spec

variable {D : Type} [Dbl D]

/-- Two angles with the same cosine and sine. -/
structure SameDirection (h h' : D) : Prop where
  cos : Num.cos h' = (Num.cos h : D)
  sin : Num.sin h' = (Num.sin h : D)

/-- The same constraint, but for full turns. -/
inductive SameButTurns : Constraint D → Constraint D → Prop
  | same (c : Constraint D) : SameButTurns c c
  | pose (x y : D) {h h' : D} (e : SameDirection h h') : SameButTurns (.poseEquality x y h) (.poseEquality x y h')
  | velocity {h h' : D} (e : SameDirection h h') :
      SameButTurns (.linearVelocityDirection h) (.linearVelocityDirection h')

/-- The same call, but for full turns. -/
inductive SameCall : Op D → Op D → Prop
  | same (op : Op D) : SameCall op op
  | pose (i : Nat) (x y : D) {h h' : D} (e : SameDirection h h') : SameCall (.poseWpt i x y h) (.poseWpt i x y h')
  | translation (i : Nat) (x y : D) {h h' : D} (e : SameDirection h h') :
      SameCall (.translationWpt i x y h) (.translationWpt i x y h')
  | guess (i : Nat) (x y : D) {h h' : D} (e : SameDirection h h') :
      SameCall (.wptInitialGuessPoint i (.ofXYHeading x y h)) (.wptInitialGuessPoint i (.ofXYHeading x y h'))
  | wpt (i : Nat) {c c' : Constraint D} (e : SameButTurns c c') : SameCall (.wptConstraint i c) (.wptConstraint i c')
  | sgmt (i j : Nat) {c c' : Constraint D} (e : SameButTurns c c') :
      SameCall (.sgmtConstraint i j c) (.sgmtConstraint i j c')

/-- Call for call. -/
inductive SameCalls : List (Op D) → List (Op D) → Prop
  | nil : SameCalls [] []
  | cons {op op' : Op D} {ops ops' : List (Op D)} (h : SameCall op op') (hs : SameCalls ops ops') :
      SameCalls (op :: ops) (op' :: ops')

end Trajopt.Spec
