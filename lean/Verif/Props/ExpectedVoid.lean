import Verif.Spec.ExpectedVoid
import Verif.Props.Expected

/-!
# C101 `expected<void, E>` behaves like success or an error
-/

set_option autoImplicit false

namespace Trajopt.Props

open Exp

section
variable {E : Type} (e : Elem E)

/-- Two functions to objects agree. -/
local macro "agree" i:term "," j:term : tactic =>
  `(tactic| (intro k; by_cases hk : k = $i <;> by_cases hk' : k = $j <;>
      simp_all [Spec.Void.Store.put, Spec.Void.holding, Src.get]))

/-- **C101.** Whatever throws, a call on objects of which each is a success or holds one error does what it should,
or throws leaving successes successes and errors errors, or ends the process; the last two only if it uses
an operation of `E` that is not `noexcept` and something does throw.  Nothing is undefined and no error is left undestroyed. -/
theorem C101_call (c : Void.Call E) (s s' : Spec.Void.Store E) (w : World Unit E) (hw : Spec.Void.Holds w s)
    (hs : Spec.Void.step e s c = some s') (hc : Spec.Void.Callable e c) :
    Spec.Void.Outcome e s s' w c (c.exec e w) := by
  obtain ⟨o, q, l⟩ := w
  obtain rfl : o = fun i => (s i).map Spec.Void.holding := funext hw
  clear hw
  obtain ⟨ec, em, eca, ema, emd, esm, esp⟩ := e
  cases c with
  | new i =>
    simp only [Spec.Void.step] at hs
    split at hs
    · cases hs
      simp [Void.Call.exec, Void.new, Spec.Void.Outcome, Spec.Void.Holds]
      agree i, i
    · cases hs
  | newErr i src =>
    simp only [Spec.Void.step] at hs
    split at hs
    · cases hs
      rcases src with v | v <;> cases ec <;> cases em <;> rcases q with _ | ⟨_ | _, q⟩ <;>
        simp [Void.Call.exec, Void.newErr, Src.nothrow, Spec.Void.Outcome, Spec.Void.Holds, Spec.Void.MayThrow]
      all_goals first
        | exact ⟨s, fun _ => rfl, fun _ => rfl⟩
        | agree i, i
    · cases hs
  | copyConstruct i j =>
    simp only [Spec.Void.step] at hs
    split at hs
    · rename_i x hi hj
      cases hs
      have hij : j ≠ i := by rintro rfl; rw [hi] at hj; cases hj
      rcases x with _ | x <;> cases ec <;> rcases q with _ | ⟨_ | _, q⟩ <;>
        simp [Void.Call.exec, Void.copyConstruct, Void.constructErrorCopy, hj, hij, Spec.Void.holding,
          Spec.Void.Outcome, Spec.Void.Holds, Spec.Void.MayEnd]
      all_goals agree i, j
    · cases hs
  | moveConstruct i j =>
    simp only [Spec.Void.step] at hs
    split at hs
    · rename_i x hi hj
      cases hs
      have hij : j ≠ i := by rintro rfl; rw [hi] at hj; cases hj
      rcases x with _ | x <;> cases em <;> rcases q with _ | ⟨_ | _, q⟩ <;>
        simp [Void.Call.exec, Void.moveConstruct, Void.constructErrorMove, takeErr, hj, hij, hij.symm,
          Spec.Void.holding, Spec.Void.Outcome, Spec.Void.Holds, Spec.Void.MayEnd]
      all_goals agree i, j
    · cases hs
  | delete i =>
    simp only [Spec.Void.step] at hs
    split at hs
    · cases hs
    · rename_i hi
      cases hs
      obtain ⟨x, hx⟩ := Option.ne_none_iff_exists'.mp hi
      rcases x with _ | x <;>
        simp [Void.Call.exec, Void.delete, release, hx, Spec.Void.holding, Spec.Void.Outcome, Spec.Void.Holds]
      all_goals agree i, i
  | copyAssign i j =>
    simp only [Spec.Void.step] at hs
    split at hs
    · rename_i y x hi hj
      cases hs
      by_cases hij : j = i
      · subst hij
        rw [hi] at hj
        cases hj
        rcases y with _ | y <;> cases eca <;> rcases q with _ | ⟨_ | _, q⟩ <;>
          simp [Void.Call.exec, Void.copyAssign, assignErr, Src.nothrowAssign, hi,
            Spec.Void.holding, Spec.Void.Outcome, Spec.Void.Holds, Spec.Void.MayEnd]
        all_goals agree j, j
      rcases x with _ | x <;> rcases y with _ | y <;> cases ec <;> cases eca <;> rcases q with _ | ⟨_ | _, q⟩ <;>
        simp [Void.Call.exec, Void.copyAssign, Void.constructErrorCopy, assignErr, Src.nothrowAssign, hi, hj,
          Spec.Void.holding, Spec.Void.Outcome, Spec.Void.Holds, Spec.Void.MayEnd]
      all_goals agree i, j
    · cases hs
  | moveAssign i j =>
    simp only [Spec.Void.step] at hs
    split at hs
    · rename_i y x hi hj
      by_cases hij : j = i
      · subst hij
        rw [hi] at hj
        cases hj
        rw [if_pos rfl] at hs
        cases hs
        rcases y with _ | y <;> cases ema <;> rcases q with _ | ⟨_ | _, q⟩ <;>
          simp [Void.Call.exec, Void.moveAssign, moveAssignErr, hi,
            Spec.Void.holding, Spec.Void.Outcome, Spec.Void.Holds, Spec.Void.MayEnd]
        all_goals agree j, j
      rw [if_neg fun h => hij h.symm] at hs
      cases hs
      have hij' : ¬ i = j := fun h => hij h.symm
      rcases x with _ | x <;> rcases y with _ | y <;> cases em <;> cases ema <;> rcases q with _ | ⟨_ | _, q⟩ <;>
        simp [Void.Call.exec, Void.moveAssign, Void.constructErrorMove, takeErr, moveAssignErr, assignErr,
          Src.nothrowAssign, hi, hj, hij, hij', Spec.Void.holding, Spec.Void.Outcome, Spec.Void.Holds,
          Spec.Void.MayEnd]
      all_goals agree i, j
    · cases hs
  | assignUnexpected i src =>
    simp only [Spec.Void.step] at hs
    split at hs
    · cases hs
    · rename_i hi
      cases hs
      obtain ⟨x, hx⟩ := Option.ne_none_iff_exists'.mp hi
      rcases src with v | v <;> simp only [Spec.Void.Callable] at hc <;> subst hc <;> rcases x with _ | x <;>
        cases eca <;> cases ema <;> rcases q with _ | ⟨_ | _, q⟩ <;>
        simp [Void.Call.exec, Void.assignUnexpected, hx, assignErr, Src.nothrow, Src.nothrowAssign,
          Spec.Void.holding, Spec.Void.Outcome, Spec.Void.Holds, Spec.Void.MayEnd, Spec.Void.MayThrow]
      all_goals first
        | agree i, i
        | (refine ⟨s.put i (some (some (esp x v))), fun k => ?_, ?_⟩
           · by_cases hk : k = i <;> simp [Spec.Void.Store.put, hk, hx]
           · agree i, i)

/-- **C101.** If nothing throws, a program does to the objects what it does to successes and errors. -/
theorem C101_history (cs : List (Void.Call E)) (s s' : Spec.Void.Store E) (w : World Unit E) (hw : Spec.Void.Holds w s)
    (hq : true ∉ w.oracle) (hs : cs.foldlM (Spec.Void.step e) s = some s')
    (hc : ∀ c ∈ cs, Spec.Void.Callable e c) :
    ∃ w', Void.runCalls e cs w = .ok () w' ∧ Spec.Void.Holds w' s' ∧ w'.leaks = w.leaks := by
  induction cs generalizing s w with
  | nil => cases hs; exact ⟨w, rfl, hw, rfl⟩
  | cons c cs ih =>
    rw [List.foldlM_cons] at hs
    obtain ⟨s₁, h₁, h₂⟩ := Option.bind_eq_some_iff.mp hs
    have h := C101_call e c s s₁ w hw h₁ (hc c List.mem_cons_self)
    rcases hx : c.exec e w with ⟨⟨⟩, w₁⟩ | ⟨x, w₁⟩ <;> rw [hx] at h
    · obtain ⟨hw₁, hl₁, hq₁⟩ := h
      obtain ⟨w₂, e₂, hw₂, hl₂⟩ := ih s₁ w₁ hw₁ (fun h => hq (hq₁.subset h)) h₂
        fun c h => hc c (List.mem_cons_of_mem _ h)
      exact ⟨w₂, by simp [Void.runCalls, hx, e₂], hw₂, hl₂.trans hl₁⟩
    · cases x
      · exact absurd h.1 hq
      · exact absurd h.1 hq
      · exact h.elim

/-- **C101.** Whatever throws, a program that catches what is thrown ends with every object a success or one error
and no error left undestroyed, or with the end of the process in a call that uses an operation of `E` that is not
`noexcept`. -/
theorem C101_history_throwing (cs : List (Void.Call E)) (s : Spec.Void.Store E) (w : World Unit E)
    (hw : Spec.Void.Holds w s) (hl : Spec.Void.Legal e cs w) :
    match Void.runCalls e cs w with
    | .ok () w' => (∃ s', Spec.Void.Holds w' s') ∧ w'.leaks = w.leaks
    | .error .terminated _ => ∃ c ∈ cs, Spec.Void.MayEnd e c
    | .error _ _ => False := by
  induction cs generalizing s w with
  | nil => exact ⟨⟨s, hw⟩, rfl⟩
  | cons c cs ih =>
    obtain ⟨hp, hc, hl⟩ := hl
    obtain ⟨s', hs⟩ := hp s hw
    have h := C101_call e c s s' w hw hs hc
    have go : ∀ s₁ w₁, Spec.Void.Holds w₁ s₁ → w₁.leaks = w.leaks → Spec.Void.Legal e cs w₁ →
        match Void.runCalls e cs w₁ with
        | .ok () w' => (∃ s', Spec.Void.Holds w' s') ∧ w'.leaks = w.leaks
        | .error .terminated _ => ∃ c' ∈ c :: cs, Spec.Void.MayEnd e c'
        | .error _ _ => False := by
      intro s₁ w₁ h₁ h₂ h₃
      have := ih s₁ w₁ h₁ h₃
      rw [h₂] at this
      revert this
      rcases Void.runCalls e cs w₁ with ⟨⟨⟩, w'⟩ | ⟨x, w'⟩
      · exact id
      · cases x
        · exact id
        · rintro ⟨c', h, h'⟩
          exact ⟨c', List.mem_cons_of_mem _ h, h'⟩
        · exact id
    simp only [Void.runCalls, bind_run, tryCatch_run]
    revert h
    rcases hx : c.exec e w with ⟨⟨⟩, w'⟩ | ⟨x, w'⟩
    · rintro ⟨h₁, h₂, -⟩
      exact go s' w' h₁ h₂ (hl w' (.inl hx))
    · cases x
      · rintro ⟨-, -, ⟨s₁, -, h₁⟩, h₂⟩
        exact go s₁ w' h₁ h₂ (hl w' (.inr hx))
      · rintro ⟨-, h⟩
        exact ⟨c, List.mem_cons_self, h⟩
      · exact False.elim

/-- **C101.** The calls that may end the process do, if the operation throws: copying an error into an object that
does not exist yet, or over a success. -/
theorem C101_ends (he : e.nothrowCopy = false) (i j : ℕ) (x : E) (s : Spec.Void.Store E) (w : World Unit E)
    (hw : Spec.Void.Holds w s) (hj : s j = some (some x)) (o : List Bool) (ho : w.oracle = true :: o) :
    (s i = none → ∃ w', (Void.Call.copyConstruct i j).exec e w = .error .terminated w') ∧
    (s i = some none → ∃ w', (Void.Call.copyAssign i j).exec e w = .error .terminated w') := by
  obtain ⟨ob, q, l⟩ := w
  obtain rfl : ob = fun i => (s i).map Spec.Void.holding := funext hw
  obtain rfl : q = true :: o := ho
  constructor
  · intro hi
    have hij : j ≠ i := by rintro rfl; rw [hi] at hj; cases hj
    simp [Void.Call.exec, Void.copyConstruct, Void.constructErrorCopy, hj, Spec.Void.holding, he, hij]
  · intro hi
    simp [Void.Call.exec, Void.copyAssign, Void.constructErrorCopy, hi, hj, Spec.Void.holding, he]

end

/-! ### Examples -/

/-- A step fails with an error, which is passed on, overwritten by a success and destroyed. -/
def voidProgram : List (Void.Call (List ℕ)) :=
  [.new 0, .newErr 1 (.move [7]), .copyAssign 0 1, .moveConstruct 2 1, .new 3, .moveAssign 2 3,
   .assignUnexpected 3 (.move [8]), .delete 1, .delete 0]

example : (∃ s', voidProgram.foldlM (Spec.Void.step stringLike) (fun _ => none) = some s' ∧
    s' 0 = none ∧ s' 1 = none ∧ s' 2 = some none ∧ s' 3 = some (some [8])) ∧
    (∀ c ∈ voidProgram, Spec.Void.Callable stringLike c) ∧
    Spec.Void.Holds (⟨fun _ => none, [], 0⟩ : World Unit (List ℕ)) (fun _ => none) := by
  refine ⟨⟨_, rfl, rfl, rfl, rfl, rfl⟩, ?_, fun _ => rfl⟩
  simp [voidProgram, Spec.Void.Callable, stringLike]

/-- A program that is interrupted: copying the error throws. -/
example : Spec.Void.Legal stringLike [.newErr 0 (.move [1]), .newErr 1 (.copy [2]), .delete 0]
    ⟨fun _ => none, [true], 0⟩ := by
  have key : ∀ {s : Spec.Void.Store (List ℕ)} {w : World Unit (List ℕ)} (i : ℕ), Spec.Void.Holds w s →
      (w.objs i = none ↔ s i = none) := by
    intro s w i h
    rw [h i]; cases s i <;> simp
  refine ⟨fun s hs => ?_, trivial, ?_⟩
  · simp [Spec.Void.step, (key 0 hs).mp rfl]
  rintro w' (h | h)
  swap
  · cases h
  cases h
  refine ⟨fun s hs => ?_, trivial, ?_⟩
  · simp [Spec.Void.step, (key 1 hs).mp rfl]
  rintro w' (h | h)
  · cases h
  cases h
  refine ⟨fun s hs => ?_, trivial, fun _ _ => trivial⟩
  have : s 0 ≠ none := fun h => by have := (key 0 hs).mpr h; simp at this
  simp [Spec.Void.step, this]

/-- The process can end. -/
example : ∃ (s : Spec.Void.Store (List ℕ)) (w : World Unit (List ℕ)), Spec.Void.Holds w s ∧
    s 1 = some (some [2]) ∧ s 0 = some none ∧ s 2 = none ∧ w.oracle = true :: [] :=
  ⟨fun i => if i = 1 then some (some [2]) else if i = 0 then some none else none,
    ⟨fun i => Option.map Spec.Void.holding
      (if i = 1 then some (some [2]) else if i = 0 then some none else none), [true], 0⟩,
    fun _ => rfl, rfl, rfl, rfl, rfl⟩

end Trajopt.Props
