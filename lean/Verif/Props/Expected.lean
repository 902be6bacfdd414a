import Verif.Lemmas.Expected

/-!
# C60 `expected` behaves like a sum type
-/

set_option autoImplicit false

namespace Trajopt.Props

open Exp Spec

section Lifetimes
variable {T E : Type} (t : Elem T) (e : Elem E)

/-- The specification says what a call does exactly when the call only mentions existing objects. -/
theorem C60_step (s : Store T E) (c : Call T E) :
    (∃ s', step t e s c = some s') ↔ Proper (fun i => ∃ x, s i = some x) c := by
  cases c <;> simp only [step, Proper]
  case newVal i _ => cases h : s i <;> simp
  case newErr i _ => cases h : s i <;> simp
  case copyConstruct i j => cases h : s i <;> cases h' : s j <;> simp
  case moveConstruct i j => cases h : s i <;> cases h' : s j <;> simp
  case delete i => cases h : s i <;> simp
  case copyAssign i j => cases h : s i <;> cases h' : s j <;> simp
  case moveAssign i j =>
    cases h : s i <;> cases h' : s j <;> simp
    split <;> simp
  case assignValue i _ => cases h : s i <;> simp
  case assignUnexpected i _ => cases h : s i <;> simp
  case emplace i _ _ => cases h : s i <;> simp
  case emplaceList i _ _ => cases h : s i <;> simp
  case swap i j => cases h : s i <;> cases h' : s j <;> simp

/-- **C60.** As long as no operation of `T` or `E` throws, a call on objects of which each holds one
value or one error returns, does to the objects what it does to values of the sum type, and leaves no
contained object undestroyed. -/
theorem C60_call (c : Call T E) (s s' : Store T E) (w : World T E) (hw : Holds w s) (hq : Quiet w)
    (hs : step t e s c = some s') :
    ∃ w', c.exec t e w = .ok () w' ∧ Holds w' s' ∧ Quiet w' ∧ w'.leaks = w.leaks := by
  obtain ⟨o, q, l⟩ := w
  obtain rfl : o = fun i => (s i).map holding := funext hw
  obtain rfl : q = [] := hq
  obtain ⟨o', h, ho⟩ := exec_quiet t e c s s' l hs
  exact ⟨_, h, ho, rfl, rfl⟩

/-- **C60.** The same for any program: its objects hold what the sum type says at the end of it. -/
theorem C60_history (cs : List (Call T E)) (s s' : Store T E) (w : World T E) (hw : Holds w s)
    (hq : Quiet w) (hs : cs.foldlM (step t e) s = some s') :
    ∃ w', runCalls t e cs w = .ok () w' ∧ Holds w' s' ∧ Quiet w' ∧ w'.leaks = w.leaks := by
  induction cs generalizing s w with
  | nil => cases hs; exact ⟨w, rfl, hw, hq, rfl⟩
  | cons c cs ih =>
    rw [List.foldlM_cons] at hs
    obtain ⟨s₁, h₁, h₂⟩ := Option.bind_eq_some_iff.mp hs
    obtain ⟨w₁, e₁, hw₁, hq₁, hl₁⟩ := C60_call t e c s s₁ w hw hq h₁
    obtain ⟨w₂, e₂, hw₂, hq₂, hl₂⟩ := ih s₁ w₁ hw₁ hq₁ h₂
    exact ⟨w₂, by simp [runCalls, e₁, e₂], hw₂, hq₂, hl₂.trans hl₁⟩

/-- **C60, with exceptions (partial).** For types that move without throwing: whatever throws, a call
does what the sum type says, or throws with every object still holding one value or one error of the
kind it held, or ends the process; only copying does the last, and nothing is undefined.  Missing:
calls that are `Risky` (`C60_assign_refuted`, `C60_emplace_refuted`), and that a failing copy throws
(`C60_copy_refuted`). -/
theorem C60_throwing_partial (ht : NothrowMove t) (he : NothrowMove e) (c : Call T E)
    (s s' : Store T E) (w : World T E) (hw : Holds w s) (hs : step t e s c = some s')
    (hc : Callable e c) (hr : ¬ Risky t c) : Outcome s s' w.leaks c (c.exec t e w) := by
  obtain ⟨o, q, l⟩ := w
  obtain rfl : o = fun i => (s i).map holding := funext hw
  exact exec_outcome t e ht he c s s' q l hs hc hr

/-- **C60, with exceptions (partial).** The same for programs that catch what is thrown. -/
theorem C60_history_throwing_partial (ht : NothrowMove t) (he : NothrowMove e) (cs : List (Call T E))
    (s : Store T E) (w : World T E) (hw : Holds w s) (hl : Legal t e cs w) :
    match runCalls t e cs w with
    | .ok () w' => (∃ s', Holds w' s') ∧ w'.leaks = w.leaks
    | .error .terminated _ => ∃ c ∈ cs, Copies c
    | .error _ _ => False := by
  induction cs generalizing s w with
  | nil => exact ⟨⟨s, hw⟩, rfl⟩
  | cons c cs ih =>
    obtain ⟨hp, hc, hr, hl⟩ := hl
    have hp' : Proper (fun i => ∃ x, s i = some x) c := by
      have : (fun i => ∃ x, w.objs i = some x) = fun i => ∃ x, s i = some x := by
        funext i
        rw [hw i]
        cases s i <;> simp
      rwa [this] at hp
    obtain ⟨s', hs⟩ := (C60_step t e s c).mpr hp'
    have h := C60_throwing_partial t e ht he c s s' w hw hs hc hr
    have go : ∀ s₁ w₁, Holds w₁ s₁ → w₁.leaks = w.leaks → Legal t e cs w₁ →
        match runCalls t e cs w₁ with
        | .ok () w' => (∃ s', Holds w' s') ∧ w'.leaks = w.leaks
        | .error .terminated _ => ∃ c' ∈ c :: cs, Copies c'
        | .error _ _ => False := by
      intro s₁ w₁ h₁ h₂ h₃
      have := ih s₁ w₁ h₁ h₃
      rw [h₂] at this
      revert this
      rcases runCalls t e cs w₁ with ⟨⟨⟩, w'⟩ | ⟨x, w'⟩
      · exact id
      · cases x
        · exact id
        · rintro ⟨c', h, h'⟩
          exact ⟨c', List.mem_cons_of_mem _ h, h'⟩
        · exact id
    simp only [runCalls, bind_run, tryCatch_run]
    revert h
    rcases hx : c.exec t e w with ⟨⟨⟩, w'⟩ | ⟨x, w'⟩
    · rintro ⟨h₁, h₂⟩
      exact go s' w' h₁ h₂ (hl w' (.inl hx))
    · cases x
      · rintro ⟨-, ⟨s₁, -, h₁⟩, h₂⟩
        exact go s₁ w' h₁ h₂ (hl w' (.inr hx))
      · intro h
        exact ⟨c, List.mem_cons_self, h⟩
      · exact False.elim

/-- **C60 fails** for assigning to an error an lvalue whose copying throws (expected:1774-1784): the old
error is assigned to an object that has been destroyed. -/
theorem C60_assign_refuted (ht : t.nothrowCopy = false) (he : e.nothrowMove = true) (i : ℕ) (v : T)
    (x : E) (s : Store T E) (w : World T E) (hw : Holds w s) (hi : s i = some (.inr x))
    (o : List Bool) (ho : w.oracle = true :: o) :
    ∃ w', (Call.assignValue i (.copy v)).exec t e w = .error .undefined w' := by
  obtain ⟨ob, q, l⟩ := w
  obtain rfl : ob = fun i => (s i).map holding := funext hw
  obtain rfl : q = true :: o := ho
  simp [Call.exec, assignValue, hi, holding, takeErr, he, ht, assignErr, Src.nothrow]

/-- **C60 fails** for `emplace` over a value when the construction throws (expected:1839-1841): the
object claims a value that has been destroyed, and destroying the object is undefined. -/
theorem C60_emplace_refuted (i : ℕ) (v v' : T) (s : Store T E) (w : World T E) (hw : Holds w s)
    (hi : s i = some (.inl v)) (o : List Bool) (ho : w.oracle = true :: o) :
    ∃ w', (Call.emplace i false v').exec t e w = .error .threw w' ∧ w'.objs i = some ⟨true, .raw⟩ ∧
      ∃ w'', (Call.delete i).exec t e w' = .error .undefined w'' := by
  obtain ⟨ob, q, l⟩ := w
  obtain rfl : ob = fun i => (s i).map holding := funext hw
  obtain rfl : q = true :: o := ho
  refine ⟨_, by simp [Call.exec, emplace, hi, holding]; rfl, by simp, ?_⟩
  simp [Call.exec, Exp.delete]

/-- **C60 (partial).** `emplace` from an `initializer_list` over a value is safe whatever throws (expected:1866-1868,
1880-1882): the new value is made before the old one is touched.  Missing: over an error
(`C60_emplace_list_refuted`). -/
theorem C60_emplace_list_partial (i : ℕ) (nothrow : Bool) (v v' : T) (s : Store T E) (w : World T E) (hw : Holds w s)
    (hi : s i = some (.inl v)) :
    (∃ w', (Call.emplaceList i nothrow v').exec t e w = .ok () w' ∧ Holds w' (s.put i (some (.inl v'))) ∧
      w'.leaks = w.leaks) ∨
    (∃ w', (Call.emplaceList i nothrow v').exec t e w = .error .threw w' ∧ w'.leaks = w.leaks ∧
      (nothrow = false ∧ Holds w' s ∨
        t.nothrowMoveAssign = false ∧ Holds w' (s.put i (some (.inl (t.spoiled v v')))))) := by
  obtain ⟨ob, q, l⟩ := w
  obtain rfl : ob = fun i => (s i).map holding := funext hw
  obtain ⟨tc, tm, tca, tma, tmd, tsm, tsp⟩ := t
  have agree : ∀ (x : T) (k : ℕ), (if k = i then some (⟨true, .val x⟩ : Obj T E) else (s k).map holding) =
      (s.put i (some (.inl x)) k).map holding := by
    intro x k
    by_cases hk : k = i <;> simp [Store.put, hk, holding]
  cases nothrow <;> cases tma <;> rcases q with _ | ⟨_ | _, _ | ⟨_ | _, q⟩⟩ <;>
    simp [Call.exec, emplaceList, hi, holding, assignVal, Src.nothrowAssign, Src.get, Holds, agree]

/-- **C60 fails** for `emplace` from an `initializer_list` over an error when the construction throws
(expected:1883-1895): the old error is assigned to an object that has been destroyed. -/
theorem C60_emplace_list_refuted (he : e.nothrowMove = true) (i : ℕ) (v : T) (x : E) (s : Store T E) (w : World T E)
    (hw : Holds w s) (hi : s i = some (.inr x)) (o : List Bool) (ho : w.oracle = true :: o) :
    ∃ w', (Call.emplaceList i false v).exec t e w = .error .undefined w' := by
  obtain ⟨ob, q, l⟩ := w
  obtain rfl : ob = fun i => (s i).map holding := funext hw
  obtain rfl : q = true :: o := ho
  simp [Call.exec, emplaceList, hi, holding, takeErr, he, assignErr]

/-- **C60 fails** for copying (expected:730-746, 751, 759, 774): although the source says that the
strong exception guarantee is maintained, a copy that throws ends the process. -/
theorem C60_copy_refuted (ht : t.nothrowCopy = false) (he : e.nothrowMove = true) (i j : ℕ) (v : T)
    (s : Store T E) (w : World T E) (hw : Holds w s) (hj : s j = some (.inl v)) (o : List Bool)
    (ho : w.oracle = true :: o) :
    (s i = none → ∃ w', (Call.copyConstruct i j).exec t e w = .error .terminated w') ∧
      ((∃ x, s i = some (.inr x)) →
        ∃ w', (Call.copyAssign i j).exec t e w = .error .terminated w') := by
  obtain ⟨ob, q, l⟩ := w
  obtain rfl : ob = fun i => (s i).map holding := funext hw
  obtain rfl : q = true :: o := ho
  constructor
  · intro hi
    have hij : j ≠ i := by rintro rfl; rw [hi] at hj; cases hj
    simp [Call.exec, copyConstruct, hj, holding, ht, hij]
  · rintro ⟨x, hi⟩
    have hij : j ≠ i := by rintro rfl; rw [hi] at hj; cases hj
    cases htm : t.nothrowMove <;>
      simp [Call.exec, copyAssign, copyAssign.construct, hi, hj, holding, ht, htm, he, takeErr, hij]

/-- **C60 fails** for conversion from another `expected` (expected:1664-1720): the `T` constructed first
is never destroyed. -/
theorem C60_convert_refuted (i : ℕ) (dflt : T) (n n' : Bool) (x : T ⊕ E) (w : World T E)
    (hq : Quiet w) :
    ∃ w', convert i dflt n n' x w = .ok () w' ∧ w'.objs i = some (holding x) ∧
      w'.leaks = w.leaks + 1 := by
  obtain ⟨ob, q, l⟩ := w
  obtain rfl : q = [] := hq
  rcases x with x | x
  · refine ⟨_, by simp [convert, placeVal]; rfl, ?_, ?_⟩ <;> simp [holding]
  · refine ⟨_, by simp [convert, placeErr]; rfl, ?_, ?_⟩ <;> simp [holding]

/-- **C60.** What leaks is counted: storage that ends with a live object in it leaks that object, and
one that is empty leaks nothing. -/
theorem C60_release_leaks (i : ℕ) (o : Obj T E) (w : World T E) (hi : w.objs i = some o) :
    ∃ w', release i w = .ok () w' ∧ w'.objs i = none ∧
      ((∃ v, o.cell = .val v) ∨ (∃ e, o.cell = .err e) → w'.leaks = w.leaks + 1) ∧
      (o.cell = .raw → w'.leaks = w.leaks) := by
  obtain ⟨ob, q, l⟩ := w
  replace hi : ob i = some o := hi
  rcases o with ⟨b, _ | v | v⟩ <;> refine ⟨_, by simp [release, hi]; rfl, ?_⟩ <;> simp

end Lifetimes

section Combinators
variable {T E U V F : Type}

/-- **C60.** Observing an object that holds `a`. -/
theorem C60_observe (a : T ⊕ E) (v : T) :
    (holding a).deref = a.getLeft? ∧ (holding a).error = a.getRight? ∧
      (holding a).value = some (a.elim .ok .error) ∧
      (holding a).valueOr v = some (a.elim id fun _ => v) := by
  cases a <;> simp [holding, Obj.deref, Obj.error, Obj.value, Obj.valueOr]

/-- **C60.** The combinators are those of the sum type. -/
theorem C60_combine (a : T ⊕ E) (f : T → U) (g : T → U ⊕ E) (h : E → F) (k : E → T ⊕ E) :
    (holding a).map f = some (holding (a.map f id)) ∧
      (holding a).andThen (fun v => holding (g v)) = some (holding (a.elim g .inr)) ∧
      (holding a).mapError h = some (holding (a.map id h)) ∧
      (holding a).orElse (fun x => holding (k x)) = some (holding (a.elim .inl k)) ∧
      (holding a).orElseVoid = some (holding a) := by
  cases a <;> simp [holding, Obj.map, Obj.andThen, Obj.mapError, Obj.orElse, Obj.orElseVoid,
    Obj.deref, Obj.error, ofVal, ofErr]

/-- **C60.** The monad laws. -/
theorem C60_monad (a : T ⊕ E) (v : T) (f : T → U ⊕ E) (g : U → V ⊕ E) :
    (ofVal v : Obj T E).andThen (fun v => holding (f v)) = some (holding (f v)) ∧
      (holding a).andThen ofVal = some (holding a) ∧
      ((holding a).andThen fun v => holding (f v)).bind (·.andThen fun u => holding (g u)) =
        (holding a).andThen fun v => holding ((f v).elim g .inr) := by
  refine ⟨by simp [Obj.andThen, Obj.deref, ofVal], ?_, ?_⟩
  · cases a <;> simp [holding, Obj.andThen, Obj.deref, Obj.error, ofVal, ofErr]
  · cases a with
    | inl v =>
      cases h : f v <;> simp [holding, Obj.andThen, Obj.deref, Obj.error, ofErr, h]
    | inr x => simp [holding, Obj.andThen, Obj.deref, Obj.error, ofErr]

/-- **C60.** The functor laws. -/
theorem C60_functor (a : T ⊕ E) (f : T → U) (g : U → V) :
    (holding a).map id = some (holding a) ∧
      ((holding a).map f).bind (·.map g) = (holding a).map fun v => g (f v) := by
  cases a <;> simp [holding, Obj.map, Obj.deref, Obj.error, ofVal, ofErr]

/-- **C60.** Objects are equal when they hold the same, and unequal otherwise. -/
theorem C60_equal [DecidableEq T] [DecidableEq E] (a b : T ⊕ E) (v : T) (x : E) :
    (holding a).eq (fun p q => decide (p = q)) (fun p q => decide (p = q)) (holding b) =
        some (decide (a = b)) ∧
      (holding a).ne (fun p q => decide (p ≠ q)) (fun p q => decide (p ≠ q)) (holding b) =
        some (decide (a ≠ b)) ∧
      (holding a).eqVal (fun p q => decide (p = q)) v = some (decide (a = .inl v)) ∧
      (holding a).neVal (fun p q => decide (p ≠ q)) v = some (decide (a ≠ .inl v)) ∧
      (holding a).eqErr (fun p q => decide (p = q)) x = some (decide (a = .inr x)) ∧
      (holding a).neErr (fun p q => decide (p ≠ q)) x = some (decide (a ≠ .inr x)) := by
  rcases a with a | a <;> rcases b with b | b <;>
    simp [holding, Obj.eq, Obj.ne, Obj.eqVal, Obj.neVal, Obj.eqErr, Obj.neErr, Obj.deref, Obj.error]

/-- **C60.** `==` of two `expected<void, E>`. -/
theorem C60_equal_void [DecidableEq E] (a b : Unit ⊕ E) :
    eqVoid (fun p q => decide (p = q)) (holding a) (holding b) = some (decide (a = b)) := by
  rcases a with a | a <;> rcases b with b | b <;> simp [holding, eqVoid, Obj.error]

/-- **C60 fails** for `!=` of two `expected<void, E>` (expected:2466): whenever both hold errors, it
says the opposite of the truth. -/
theorem C60_unequal_void_refuted [DecidableEq E] (x y : E) :
    neVoid (fun p q => decide (p = q)) (holding (.inr x)) (holding (.inr y)) =
      some (decide (x = y)) := by
  simp [holding, neVoid, Obj.error]

/-- **C60 (partial).** Otherwise `!=` of two `expected<void, E>` is right. -/
theorem C60_unequal_void_partial [DecidableEq E] (a b : Unit ⊕ E) (h : a.isLeft ∨ b.isLeft) :
    neVoid (fun p q => decide (p = q)) (holding a) (holding b) = some (decide (a ≠ b)) := by
  rcases a with a | a <;> rcases b with b | b <;> simp_all [holding, neVoid]

end Combinators

/-! ### Examples -/

/-- A type like `std::string` (moving leaves it empty; copying may throw). -/
def stringLike : Elem (List ℕ) where
  nothrowCopy := false
  nothrowMove := true
  nothrowCopyAssign := false
  nothrowMoveAssign := true
  moved _ := []
  selfMoved v := v
  spoiled v _ := v

/-- No objects yet. -/
def emptyWorld (o : List Bool) : World (List ℕ) (List ℕ) := ⟨fun _ => none, o, 0⟩

example : NothrowMove stringLike := ⟨rfl, rfl⟩

/-- `Generate` returns an error; the result is moved, overwritten, swapped and destroyed. -/
def demoProgram : List (Call (List ℕ) (List ℕ)) :=
  [.newErr 0 (.move [1]), .moveConstruct 1 0, .newVal 2 (.move [5, 6]), .swap 1 2,
   .copyAssign 0 1, .delete 2, .moveAssign 1 0]

example : ∃ s', demoProgram.foldlM (step stringLike stringLike) (fun _ => none) = some s' ∧
    s' 0 = some (.inl []) ∧ s' 1 = some (.inl [5, 6]) ∧ s' 2 = none := ⟨_, rfl, rfl, rfl, rfl⟩

example : Holds (emptyWorld []) (fun _ => none) ∧ Quiet (emptyWorld []) := ⟨fun _ => rfl, rfl⟩

/-- A program that may be interrupted: making the copy throws. -/
example : Legal stringLike stringLike
    [.newErr 0 (.move [1]), .newVal 1 (.copy [2]), .delete 0] (emptyWorld [true]) := by
  refine ⟨by simp [Proper, emptyWorld], trivial, id, ?_⟩
  rintro w' (h | h)
  swap
  · cases h
  cases h
  refine ⟨by simp [Proper, emptyWorld], trivial, id, ?_⟩
  rintro w' (h | h)
  · cases h
  cases h
  exact ⟨⟨_, rfl⟩, trivial, id, fun _ _ => trivial⟩

/-- The hypotheses of the refutations are met. -/
example : ∃ (s : Store (List ℕ) (List ℕ)) (w : World (List ℕ) (List ℕ)), Holds w s ∧
    s 0 = some (.inr [1]) ∧ s 1 = some (.inl [2]) ∧ s 2 = none ∧ w.oracle = true :: [] := by
  refine ⟨fun i => if i = 0 then some (.inr [1]) else if i = 1 then some (.inl [2]) else none,
    ⟨fun i => Option.map holding
      (if i = 0 then some (.inr [1]) else if i = 1 then some (.inl [2]) else none), [true], 0⟩,
    fun i => rfl, rfl, rfl, rfl, rfl⟩

end Trajopt.Props
