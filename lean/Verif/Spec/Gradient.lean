import Verif.Spec.Semantics
import Mathlib.Analysis.Calculus.Deriv.Basic
import Mathlib.Data.List.Forall2

/-!
# Specification: when equality constraints are independent

Solvers that follow Newton's method on the conditions for a minimum ask that the gradients of the
equality constraints be linearly independent at the solution: that the values of the constraints'
left-hand sides can be changed independently of one another by moving the variables.
-/

set_option autoImplicit false

namespace Trajopt.Spec

/-- Moving the variables from `σ` in direction `d` changes the difference of the two sides at
rate `v`. -/
def Rate (a b : Expr ℝ) (σ d : ℕ → ℝ) (v : ℝ) : Prop :=
  HasDerivAt (fun t : ℝ => a.eval (fun i => σ i + t * d i) - b.eval (fun i => σ i + t * d i)) v 0

/-- The equality constraints among `cs` that satisfy `p` are independent at `σ`: whatever rates are
asked of them, one for each, some direction changes them at these rates. -/
def Independent (p : Con ℝ → Prop) (cs : List (Con ℝ)) (σ : ℕ → ℝ) : Prop :=
  ∀ vs : List ℝ, vs.length = cs.length → ∃ d : ℕ → ℝ,
    List.Forall₂ (fun c v => p c → ∀ a b, c = .eq a b → Rate a b σ d v) cs vs

/-- A constraint that every assignment satisfies. -/
def Identity (c : Con ℝ) : Prop := ∀ σ, c.Holds σ

end Trajopt.Spec
