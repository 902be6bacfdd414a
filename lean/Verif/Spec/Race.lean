import Verif.Model.Access
import Mathlib.Data.Nat.Notation

/-!
# Specification: data races

What C++ calls a data race ([intro.races]), for the accesses of `Model/Access`.
-/

set_option autoImplicit false

namespace Trajopt.Spec

/-- Step `i` of a trace happens before step `j`.  `sync` are the pairs of steps that the user's code orders, by locks or by
starting and joining threads. -/
inductive Before (tr : List (ℕ × List Access)) (sync : ℕ → ℕ → Prop) : ℕ → ℕ → Prop
  /-- both on one thread -/
  | thread {i j t : ℕ} {a a' : List Access} (h : i < j) (hi : tr[i]? = some (t, a)) (hj : tr[j]? = some (t, a')) :
    Before tr sync i j
  | user {i j : ℕ} (h : i < j) (hs : sync i j) : Before tr sync i j
  /-- the initialisation of a static variable comes before whatever passes its declaration later -/
  | once {i j t t' : ℕ} {a a' : List Access} (h : i < j) (hi : tr[i]? = some (t, a)) (ha : Access.init ∈ a)
      (hj : tr[j]? = some (t', a')) (ha' : Access.guard ∈ a') : Before tr sync i j
  /-- a load of the atomic flag comes after the store whose value it reads: the last one -/
  | flag {i j t t' : ℕ} {a a' : List Access} (h : i < j) (hi : tr[i]? = some (t, a)) (ha : Access.flagStore ∈ a)
      (hj : tr[j]? = some (t', a')) (ha' : Access.flagLoad ∈ a')
      (hlast : ∀ k, i < k → k < j → ∀ u c, tr[k]? = some (u, c) → Access.flagStore ∉ c) : Before tr sync i j
  | trans {i j k : ℕ} : Before tr sync i j → Before tr sync j k → Before tr sync i k

/-- Accesses to a plain variable of which one changes it. -/
def Conflict (x y : Access) : Prop :=
  (x = .init ∨ x = .read ∨ x = .write) ∧ (y = .init ∨ y = .read ∨ y = .write) ∧ ¬ (x = .read ∧ y = .read)

/-- Steps `i` and `j` race: conflicting accesses on different threads, neither of which happens before the other. -/
structure Race (tr : List (ℕ × List Access)) (sync : ℕ → ℕ → Prop) (i j : ℕ) : Prop where
  order : i < j
  conflict : ∃ t a t' a', tr[i]? = some (t, a) ∧ tr[j]? = some (t', a') ∧ t ≠ t' ∧
    ∃ x ∈ a, ∃ y ∈ a', Conflict x y
  unordered : ¬ Before tr sync i j ∧ ¬ Before tr sync j i

/-- Every generator runs on one thread. -/
def Placed {D : Type} (on : ℕ → ℕ) (actor : Event D → Option ℕ) (es : List (ℕ × Event D)) : Prop :=
  ∀ t e, (t, e) ∈ es → ∀ g, actor e = some g → t = on g

end Trajopt.Spec
