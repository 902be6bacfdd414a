import Verif.Model.Runtime

/-!
# Specification for C126: `Generate` called again
-/

set_option autoImplicit false

namespace Trajopt.Spec

variable {D : Type}

/-- In this process the event makes the solver of generator `g` set the decision variables to `v`. -/
def Sets (w : World D) (g : Nat) (e : Event D) (v : Nat → D) : Prop :=
  (w.threads g).phase = .solving ∧ (e = .iterate g v ∨ ∃ code, e = .finish g code v)

/-- The events include none by which the solver of `g` sets the decision variables. -/
def Unset (msg : Exit → String) (w : World D) (g : Nat) (es : List (Event D)) : Prop :=
  ∀ pre e post, es = pre ++ e :: post → ∀ v, ¬ Sets (w.run msg pre) g e v

/-- The two generators differ in the values of the decision variables at most. -/
structure SameProblem (g g' : Generator D) : Prop where
  path : g'.path = g.path
  vars : g'.vars = g.vars
  counts : g'.N = g.N
  handle : g'.handle = g.handle
  number : g'.problem.nvars = g.problem.nvars
  cost : g'.problem.cost = g.problem.cost
  cons : g'.problem.cons = g.problem.cons

/-- A call of `Generate` on `g`, uninterrupted, with a solver that goes from the values it finds to those it
leaves, with an exit code. -/
def generated (msg : Exit → String) (solver : (Nat → D) → Int × (Nat → D)) (w : World D) (g : Nat) : World D :=
  let found := (w.threads g).generator.problem.values
  w.run msg [.start g, .finish g (solver found).1 (solver found).2]

end Trajopt.Spec
