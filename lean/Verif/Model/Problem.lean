import Verif.Model.Base
import Verif.Model.Scalar

/-!
# The optimisation problem

`sleipnir::Variable`, its constraints and `sleipnir::OptimizationProblem`, as data.  Sleipnir
itself is not part of the repository; only the interface used by TrajoptLib is modelled.
-/

namespace Trajopt

/-- `sleipnir::Variable`: an expression over decision variables.  `var i` is the `i`-th variable
returned by `OptimizationProblem::DecisionVariable()`. -/
inductive Expr (D : Type) where
  | const (d : D)
  | var (i : Nat)
  | add (a b : Expr D)
  | sub (a b : Expr D)
  | mul (a b : Expr D)
  | div (a b : Expr D)
  | neg (a : Expr D)
  | sin (a : Expr D)
  | cos (a : Expr D)
  | atan2 (a b : Expr D)
  | hypot (a b : Expr D)
  | sign (a : Expr D)
  deriving Repr, DecidableEq

/-- Arithmetic on `sleipnir::Variable` builds expressions. -/
instance {D : Type} [Dbl D] : Num (Expr D) where
  add := .add
  sub := .sub
  mul := .mul
  div := .div
  neg := .neg
  lit q := .const (Num.lit q)
  sin := .sin
  cos := .cos
  atan2 := .atan2
  hypot := .hypot
  sign := .sign

/-- `sleipnir::EqualityConstraints` / `InequalityConstraints` with one row. `leInf a` is
`a <= INFINITY` (/repo/src/SwerveTrajectoryGenerator.cpp:108,127-129). -/
inductive Con (D : Type) where
  | eq (a b : Expr D)
  | le (a b : Expr D)
  | ge (a b : Expr D)
  | leInf (a : Expr D)
  deriving Repr, DecidableEq

/-- `sleipnir::OptimizationProblem`: number of decision variables, their current values, the
constraints in the order of `SubjectTo`, and the expression to minimise. -/
structure Problem (D : Type) where
  nvars : Nat
  values : Nat → D
  cons : List (Con D)
  cost : Option (Expr D)

namespace Problem

variable {D : Type}

/-- A default constructed problem. -/
def empty [Dbl D] : Problem D := ⟨0, fun _ => Num.lit 0, [], none⟩

/-- `DecisionVariable()`: a fresh variable with value 0. -/
def decisionVariable [Dbl D] (p : Problem D) : Nat × Problem D :=
  (p.nvars, { p with
    nvars := p.nvars + 1
    values := fun i => if i = p.nvars then Num.lit 0 else p.values i })

/-- `SubjectTo(...)`. -/
def subjectTo (p : Problem D) (cs : List (Con D)) : Problem D := { p with cons := p.cons ++ cs }

/-- `Minimize(...)`. -/
def minimize (p : Problem D) (e : Expr D) : Problem D := { p with cost := some e }

/-- `Variable::SetValue` on decision variable `i`. -/
def setValue (p : Problem D) (i : Nat) (v : D) : Problem D :=
  { p with values := fun j => if j = i then v else p.values j }

end Problem

end Trajopt
