import Verif.Model.ExpectedVoid
import Mathlib.Data.Nat.Notation

/-! # Specification: `expected<void, E>` as success or an error -/

set_option autoImplicit false

namespace Trajopt.Spec.Void

open Exp Exp.Void

variable {E : Type}

/-- An object is a success (`none`) or an error. -/
abbrev Store (E : Type) := ℕ → Option (Option E)

/-- Store `x` under `i`. -/
def Store.put (s : Store E) (i : ℕ) (x : Option (Option E)) : Store E := fun k => if k = i then x else s k

/-- What a call should do; `none` for calls on objects that do not exist (or, for constructors, that do). -/
def step (e : Elem E) (s : Store E) : Call E → Option (Store E)
  | .new i => if s i = none then some (s.put i (some none)) else none
  | .newErr i src => if s i = none then some (s.put i (some (some src.get))) else none
  | .copyConstruct i j =>
    match s i, s j with
    | none, some x => some (s.put i (some x))
    | _, _ => none
  | .moveConstruct i j =>
    match s i, s j with
    | none, some x => some ((s.put j (some (x.map e.moved))).put i (some x))
    | _, _ => none
  | .delete i => if s i = none then none else some (s.put i none)
  | .copyAssign i j =>
    match s i, s j with
    | some _, some x => some (s.put i (some x))
    | _, _ => none
  | .moveAssign i j =>
    match s i, s j with
    | some _, some x =>
      if i = j then some (s.put i (some (x.map e.selfMoved)))
      else some ((s.put j (some (x.map e.moved))).put i (some x))
    | _, _ => none
  | .assignUnexpected i src => if s i = none then none else some (s.put i (some (some src.get)))

/-- The object that is `x` and knows it. -/
def holding : Option E → Obj Unit E
  | none => ⟨true, .raw⟩
  | some x => ⟨false, .err x⟩

/-- The objects are exactly what `s` says. -/
def Holds (w : World Unit E) (s : Store E) : Prop := ∀ i, w.objs i = (s i).map holding

/-- Assignment from a `const unexpected<E>&` exists only for an `E` that copies without throwing, from an rvalue for
one that moves without throwing (expected:1795, 1810). -/
def Callable (e : Elem E) : Call E → Prop
  | .assignUnexpected _ (.copy _) => e.nothrowCopy = true
  | .assignUnexpected _ (.move _) => e.nothrowMove = true
  | _ => True

/-- Calls that end the process if an operation of `E` throws, and the operations they use. -/
def MayEnd (e : Elem E) : Call E → Prop
  | .copyConstruct _ _ => e.nothrowCopy = false
  | .moveConstruct _ _ => e.nothrowMove = false
  | .copyAssign _ _ => e.nothrowCopy = false ∨ e.nothrowCopyAssign = false
  | .moveAssign _ _ => e.nothrowMove = false ∨ e.nothrowMoveAssign = false
  | .assignUnexpected _ (.move _) => e.nothrowMoveAssign = false
  | _ => False

/-- Calls that can throw, and the operations they use. -/
def MayThrow (e : Elem E) : Call E → Prop
  | .newErr _ (.copy _) => e.nothrowCopy = false
  | .newErr _ (.move _) => e.nothrowMove = false
  | .assignUnexpected _ (.copy _) => e.nothrowCopyAssign = false
  | _ => False

/-- The same objects exist, successes are successes and errors are errors. -/
def SameKinds (s s' : Store E) : Prop := ∀ i, (s' i).map Option.isSome = (s i).map Option.isSome

/-- What may come of call `c`, which should change `s` to `s'`; the oracle is used up from the front. -/
def Outcome (e : Elem E) (s s' : Store E) (w : World Unit E) (c : Call E) :
    EStateM.Result Stop (World Unit E) Unit → Prop
  | .ok () w' => Holds w' s' ∧ w'.leaks = w.leaks ∧ w'.oracle <:+ w.oracle
  | .error .threw w' => true ∈ w.oracle ∧ MayThrow e c ∧ (∃ s'', SameKinds s s'' ∧ Holds w' s'') ∧ w'.leaks = w.leaks
  | .error .terminated _ => true ∈ w.oracle ∧ MayEnd e c
  | .error .undefined _ => False

/-- Every call of the program, when it is reached, mentions only objects that exist, constructs none that exists,
and is a call that compiles. -/
def Legal (e : Elem E) : List (Call E) → World Unit E → Prop
  | [], _ => True
  | c :: cs, w =>
    (∀ s, Holds w s → ∃ s', step e s c = some s') ∧ Callable e c ∧
      ∀ w', c.exec e w = .ok () w' ∨ c.exec e w = .error .threw w' → Legal e cs w'

end Trajopt.Spec.Void
