import Verif.Spec.Builder
import Verif.Model.Generator

/-!
# Specification: guessing differently
-/

set_option autoImplicit false

namespace Trajopt.Spec

variable {D : Type}

/-- The same call, but for the poses that are guessed. -/
inductive SameButGuess : Op D → Op D → Prop
  | same (op : Op D) : SameButGuess op op
  | wpt (i : ℕ) (p p' : Pose2 D) : SameButGuess (.wptInitialGuessPoint i p) (.wptInitialGuessPoint i p')
  | sgmt (i : ℕ) (ps ps' : List (Pose2 D)) :
      SameButGuess (.sgmtInitialGuessPoints i ps) (.sgmtInitialGuessPoints i ps')
  | translation (i : ℕ) (x y h h' : D) : SameButGuess (.translationWpt i x y h) (.translationWpt i x y h')

/-- Where the generators' problems differ: in the start values. -/
def UpToStart (r r' : Res (Generator D)) : Prop :=
  match r, r' with
  | .error e, .error e' => e' = e
  | .ok g, .ok g' => g' = { g with problem := { g.problem with values := g'.problem.values } }
  | _, _ => False

end Trajopt.Spec
