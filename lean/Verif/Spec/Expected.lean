import Verif.Model.Expected
import Mathlib.Data.Nat.Notation

/-! # Specification: `expected` as a sum type -/

set_option autoImplicit false

namespace Trajopt.Spec

open Exp

variable {T E : Type}

/-- Objects are values or errors. -/
abbrev Store (T E : Type) := ℕ → Option (T ⊕ E)

/-- Store `x` under `i`. -/
def Store.put (s : Store T E) (i : ℕ) (x : Option (T ⊕ E)) : Store T E :=
  fun k => if k = i then x else s k

/-- What is left of a value or error that was moved from. -/
def leftover (t : Elem T) (e : Elem E) : T ⊕ E → T ⊕ E
  | .inl v => .inl (t.moved v)
  | .inr x => .inr (e.moved x)

/-- What is left of a value or error that was moved to itself. -/
def selfLeftover (t : Elem T) (e : Elem E) : T ⊕ E → T ⊕ E
  | .inl v => .inl (t.selfMoved v)
  | .inr x => .inr (e.selfMoved x)

/-- What a call should do; `none` for calls on objects that do not exist (or, for constructors, that
do). -/
def step (t : Elem T) (e : Elem E) (s : Store T E) : Call T E → Option (Store T E)
  | .newVal i src => if s i = none then some (s.put i (some (.inl src.get))) else none
  | .newErr i src => if s i = none then some (s.put i (some (.inr src.get))) else none
  | .copyConstruct i j =>
    match s i, s j with
    | none, some x => some (s.put i (some x))
    | _, _ => none
  | .moveConstruct i j =>
    match s i, s j with
    | none, some x => some ((s.put j (some (leftover t e x))).put i (some x))
    | _, _ => none
  | .delete i => if s i = none then none else some (s.put i none)
  | .copyAssign i j =>
    match s i, s j with
    | some _, some x => some (s.put i (some x))
    | _, _ => none
  | .moveAssign i j =>
    match s i, s j with
    | some _, some x =>
      if i = j then some (s.put i (some (selfLeftover t e x)))
      else some ((s.put j (some (leftover t e x))).put i (some x))
    | _, _ => none
  | .assignValue i src => if s i = none then none else some (s.put i (some (.inl src.get)))
  | .assignUnexpected i src => if s i = none then none else some (s.put i (some (.inr src.get)))
  | .emplace i _ v | .emplaceList i _ v => if s i = none then none else some (s.put i (some (.inl v)))
  | .swap i j =>
    match s i, s j with
    | some x, some y => some ((s.put j (some x)).put i (some y))
    | _, _ => none

/-- The object that holds `x` and nothing else, and knows it. -/
def holding : T ⊕ E → Obj T E
  | .inl v => ⟨true, .val v⟩
  | .inr x => ⟨false, .err x⟩

/-- The objects hold exactly what `s` says. -/
def Holds (w : World T E) (s : Store T E) : Prop := ∀ i, w.objs i = (s i).map holding

/-- No operation of an element type throws. -/
def Quiet (w : World T E) : Prop := w.oracle = []

/-- A call only mentions objects that exist, and constructs none that exists. -/
def Proper (ex : ℕ → Prop) : Call T E → Prop
  | .newVal i _ | .newErr i _ => ¬ ex i
  | .copyConstruct i j | .moveConstruct i j => ¬ ex i ∧ ex j
  | .delete i | .assignValue i _ | .assignUnexpected i _ | .emplace i _ _ | .emplaceList i _ _ => ex i
  | .copyAssign i j | .moveAssign i j | .swap i j => ex i ∧ ex j

/-- Moving neither throws when constructing nor when assigning (as `SwerveSolution` and
`std::string`). -/
def NothrowMove {α : Type} (x : Elem α) : Prop := x.nothrowMove = true ∧ x.nothrowMoveAssign = true

/-- The same objects exist, values are values and errors are errors. -/
def SameKinds (s s' : Store T E) : Prop := ∀ i, (s' i).map Sum.isLeft = (s i).map Sum.isLeft

/-- Construction in place from something that may throw. -/
def Risky (t : Elem T) : Call T E → Prop
  | .assignValue _ (.copy _) => t.nothrowCopy = false
  | .emplace _ nothrow _ | .emplaceList _ nothrow _ => nothrow = false
  | _ => False

/-- Copying an `expected`. -/
def Copies : Call T E → Prop
  | .copyConstruct _ _ | .copyAssign _ _ => True
  | _ => False

/-- Assignment from a `const unexpected<E>&` exists only for an `E` that copies without throwing. -/
def Callable (e : Elem E) : Call T E → Prop
  | .assignUnexpected _ (.copy _) => e.nothrowCopy = true
  | _ => True

/-- Destroying, moving and swapping, and construction from and assignment of temporaries. -/
def Moves : Call T E → Prop
  | .moveConstruct _ _ | .moveAssign _ _ | .swap _ _ | .delete _ | .newVal _ (.move _)
  | .newErr _ (.move _) | .assignValue _ (.move _) | .assignUnexpected _ (.move _)
  | .emplace _ true _ | .emplaceList _ true _ => True
  | _ => False

/-- What may come of call `c`, which should change `s` to `s'`: it does so, or it throws (if
it does not merely move) and every object still holds a value if it did, an error if it did,
or it is a copy and the process ends. -/
def Outcome (s s' : Store T E) (leaks : ℕ) (c : Call T E) :
    EStateM.Result Stop (World T E) Unit → Prop
  | .ok () w => Holds w s' ∧ w.leaks = leaks
  | .error .threw w => ¬ Moves c ∧ (∃ s'', SameKinds s s'' ∧ Holds w s'') ∧ w.leaks = leaks
  | .error .terminated _ => Copies c
  | .error .undefined _ => False

/-- Every call of the program, when it is reached, only mentions existing objects, exists, and is not
`Risky`. -/
def Legal (t : Elem T) (e : Elem E) : List (Call T E) → World T E → Prop
  | [], _ => True
  | c :: cs, w =>
    Proper (fun i => ∃ x, w.objs i = some x) c ∧ Callable e c ∧ ¬ Risky t c ∧
      ∀ w', c.exec t e w = .ok () w' ∨ c.exec t e w = .error .threw w' → Legal t e cs w'

end Trajopt.Spec
