import Verif.Spec.Trajectory
import Mathlib.Analysis.Calculus.ContDiff.Defs

/-!
# Specification: smoothness of the problem

Newton's method uses first and second derivatives of the cost and of the constraints' functions.
-/

set_option autoImplicit false

namespace Trajopt.Spec

/-- The assignment given by a vector of decision variables. -/
def ofVec {n : ℕ} (x : Fin n → ℝ) (i : ℕ) : ℝ := if h : i < n then x ⟨i, h⟩ else 0

/-- The function that a constraint compares with zero. -/
noncomputable def conFun (σ : ℕ → ℝ) : Con ℝ → ℝ
  | .eq a b => a.eval σ - b.eval σ
  | .le a b => a.eval σ - b.eval σ
  | .ge a b => a.eval σ - b.eval σ
  | .leInf a => a.eval σ

/-- The cost and every constraint's function are `k` times continuously differentiable at `x`. -/
def SmoothAt (k : WithTop ℕ∞) (p : Problem ℝ) (x : Fin p.nvars → ℝ) : Prop :=
  (∀ e, p.cost = some e → ContDiffAt ℝ k (fun y : Fin p.nvars → ℝ => e.eval (ofVec y)) x) ∧
  ∀ c ∈ p.cons, ContDiffAt ℝ k (fun y : Fin p.nvars → ℝ => conFun (ofVec y) c) x

/-- The point of the line through `a` and `b` nearest to `p` is `a` or `b`. -/
def AtEnd (a b p : ℂ) : Prop :=
  ((p - a) * (starRingEnd ℂ) (b - a)).re = 0 ∨ ((p - b) * (starRingEnd ℂ) (b - a)).re = 0

/-- The states in which the constraint has a corner: the robot is on the point it has to face (unless
facing it means facing it by at most a right angle, where its distance does not matter); the nearest point of a line segment is about to leave an end (or the segment is a point). -/
def Corner (c : Constraint ℝ) (s : State) : Prop :=
  match c with
  | .pointAt p tol => s.pos = vec p ∧ Real.cos tol ≠ 0
  | .linePoint a b p _ => AtEnd (s.onRobot a) (s.onRobot b) (vec p)
  | .pointLine r a b _ => AtEnd (vec a) (vec b) (s.onRobot r)
  | _ => False

end Trajopt.Spec
