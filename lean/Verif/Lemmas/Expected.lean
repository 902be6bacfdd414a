import Verif.Spec.Expected
import Mathlib.Tactic.Common

/-! # Running `expected` programs -/

set_option autoImplicit false

namespace Trajopt.Exp

open Spec

variable {T E α β : Type} (t : Elem T) (e : Elem E)

@[simp] theorem pure_run (a : β) (w : World T E) : (pure a : M T E β) w = .ok a w := rfl

@[simp] theorem bind_run (m : M T E α) (f : α → M T E β) (w : World T E) :
    (m >>= f) w = match m w with
      | .ok a w' => f a w'
      | .error x w' => .error x w' := by
  change EStateM.bind m f w = _
  unfold EStateM.bind
  cases m w <;> rfl

@[simp] theorem throw_run (x : Stop) (w : World T E) : (throw x : M T E β) w = .error x w := rfl

@[simp] theorem modify_run (f : World T E → World T E) (w : World T E) :
    (modify f : M T E PUnit) w = .ok () (f w) := rfl

@[simp] theorem tryCatch_run (m : M T E β) (h : Stop → M T E β) (w : World T E) :
    (tryCatch m h) w = match m w with
      | .ok a w' => .ok a w'
      | .error x w' => h x w' := by
  change EStateM.tryCatch m h w = _
  unfold EStateM.tryCatch
  cases m w <;> rfl

@[simp] theorem ite_run (c : Prop) [Decidable c] (m m' : M T E β) (w : World T E) :
    (if c then m else m') w = if c then m w else m' w := by split <;> rfl

variable (o : ℕ → Option (Obj T E)) (b : List Bool) (l : ℕ)

@[simp] theorem mayThrow_true (w : World T E) : mayThrow true w = .ok () w := rfl

@[simp] theorem mayThrow_nil (n : Bool) : mayThrow n ⟨o, [], l⟩ = .ok () ⟨o, [], l⟩ := by
  cases n <;> rfl

@[simp] theorem mayThrow_cons (x : Bool) : mayThrow false ⟨o, x :: b, l⟩ =
    if x then .error .threw ⟨o, b, l⟩ else .ok () ⟨o, b, l⟩ := by
  cases x <;> rfl

@[simp] theorem put_run (i : ℕ) (x : Obj T E) : put i x ⟨o, b, l⟩ =
    .ok () ⟨fun k => if k = i then some x else o k, b, l⟩ := rfl

@[simp] theorem obj_run (i : ℕ) : obj i ⟨o, b, l⟩ = match o i with
    | some x => .ok x ⟨o, b, l⟩
    | none => .error .undefined ⟨o, b, l⟩ := by
  change (match o i with
    | some o => (pure o : M T E (Obj T E))
    | none => throw Stop.undefined) ⟨o, b, l⟩ = _
  cases o i <;> rfl

@[simp] theorem hasValue_run (i : ℕ) : hasValue i ⟨o, b, l⟩ = match o i with
    | some x => .ok x.hasVal ⟨o, b, l⟩
    | none => .error .undefined ⟨o, b, l⟩ := by
  unfold hasValue
  cases h : o i <;> simp [h]

@[simp] theorem setHas_run (i : ℕ) (h : Bool) : setHas i h ⟨o, b, l⟩ = match o i with
    | some x => .ok () ⟨fun k => if k = i then some ⟨h, x.cell⟩ else o k, b, l⟩
    | none => .error .undefined ⟨o, b, l⟩ := by
  unfold setHas
  cases h : o i <;> simp [h]

@[simp] theorem readVal_run (i : ℕ) : readVal i ⟨o, b, l⟩ = match o i with
    | some ⟨_, .val v⟩ => .ok v ⟨o, b, l⟩
    | _ => .error .undefined ⟨o, b, l⟩ := by
  unfold readVal
  rcases h : o i with _ | ⟨_, _ | _ | _⟩ <;> simp [h]

@[simp] theorem readErr_run (i : ℕ) : readErr i ⟨o, b, l⟩ = match o i with
    | some ⟨_, .err v⟩ => .ok v ⟨o, b, l⟩
    | _ => .error .undefined ⟨o, b, l⟩ := by
  unfold readErr
  rcases h : o i with _ | ⟨_, _ | _ | _⟩ <;> simp [h]

@[simp] theorem writeVal_run (i : ℕ) (v : T) : writeVal i v ⟨o, b, l⟩ = match o i with
    | some ⟨h, .val _⟩ => .ok () ⟨fun k => if k = i then some ⟨h, .val v⟩ else o k, b, l⟩
    | _ => .error .undefined ⟨o, b, l⟩ := by
  unfold writeVal
  rcases h : o i with _ | ⟨_, _ | _ | _⟩ <;> simp [h]

@[simp] theorem writeErr_run (i : ℕ) (v : E) : writeErr i v ⟨o, b, l⟩ = match o i with
    | some ⟨h, .err _⟩ => .ok () ⟨fun k => if k = i then some ⟨h, .err v⟩ else o k, b, l⟩
    | _ => .error .undefined ⟨o, b, l⟩ := by
  unfold writeErr
  rcases h : o i with _ | ⟨_, _ | _ | _⟩ <;> simp [h]

@[simp] theorem destroyVal_run (i : ℕ) : destroyVal i ⟨o, b, l⟩ = match o i with
    | some ⟨h, .val _⟩ => .ok () ⟨fun k => if k = i then some ⟨h, .raw⟩ else o k, b, l⟩
    | _ => .error .undefined ⟨o, b, l⟩ := by
  unfold destroyVal
  rcases h : o i with _ | ⟨_, _ | _ | _⟩ <;> simp [h]

@[simp] theorem destroyErr_run (i : ℕ) : destroyErr i ⟨o, b, l⟩ = match o i with
    | some ⟨h, .err _⟩ => .ok () ⟨fun k => if k = i then some ⟨h, .raw⟩ else o k, b, l⟩
    | _ => .error .undefined ⟨o, b, l⟩ := by
  unfold destroyErr
  rcases h : o i with _ | ⟨_, _ | _ | _⟩ <;> simp [h]

@[simp] theorem placeVal_run (i : ℕ) (v : T) (h : Bool) (hi : o i = some ⟨h, .raw⟩) :
    placeVal i v ⟨o, b, l⟩ = .ok () ⟨fun k => if k = i then some ⟨h, .val v⟩ else o k, b, l⟩ := by
  unfold placeVal
  simp [hi]

@[simp] theorem placeErr_run (i : ℕ) (v : E) (h : Bool) (hi : o i = some ⟨h, .raw⟩) :
    placeErr i v ⟨o, b, l⟩ = .ok () ⟨fun k => if k = i then some ⟨h, .err v⟩ else o k, b, l⟩ := by
  unfold placeErr
  simp [hi]

@[simp] theorem noexcept_run (m : M T E α) (w : World T E) : noexcept m w = match m w with
    | .ok a w' => .ok a w'
    | .error x w' => .error (if x = .threw then .terminated else x) w' := by
  unfold noexcept
  rw [tryCatch_run]
  rcases m w with ⟨a, w'⟩ | ⟨x, w'⟩
  · rfl
  · cases x <;> rfl

@[simp] theorem catchRethrow_run (m : M T E α) (h : M T E Unit) (w : World T E) :
    catchRethrow m h w = match m w with
      | .ok a w' => .ok a w'
      | .error x w' => if x = .threw then
          (match h w' with
            | .ok _ w'' => .error .threw w''
            | .error y w'' => .error y w'')
        else .error x w' := by
  unfold catchRethrow
  rw [tryCatch_run]
  rcases m w with ⟨a, w'⟩ | ⟨x, w'⟩
  · rfl
  · cases x <;> simp
    cases h w' <;> rfl

section Lifetimes
variable {T E : Type} (t : Elem T) (e : Elem E)

/-- Two functions to objects agree. -/
local macro "agree" i:term "," j:term : tactic =>
  `(tactic| (intro k; by_cases hk : k = $i <;> by_cases hk' : k = $j <;>
      simp_all [Store.put, holding, leftover, selfLeftover, Src.get]))

/-- What a call does when no element operation throws. -/
theorem exec_quiet (c : Call T E) (s s' : Store T E) (l : ℕ) (hs : step t e s c = some s') :
    ∃ o', c.exec t e ⟨fun i => (s i).map holding, [], l⟩ = .ok () ⟨o', [], l⟩ ∧
      ∀ i, o' i = (s' i).map holding := by
  obtain ⟨tc, tm, tca, tma, tmd, tsm, tsp⟩ := t
  obtain ⟨ec, em, eca, ema, emd, esm, esp⟩ := e
  cases c with
  | newVal i src =>
    simp only [step] at hs
    split at hs
    · cases hs
      refine ⟨_, by simp [Call.exec, newVal]; rfl, ?_⟩
      agree i, i
    · cases hs
  | newErr i src =>
    simp only [step] at hs
    split at hs
    · cases hs
      refine ⟨_, by simp [Call.exec, newErr]; rfl, ?_⟩
      agree i, i
    · cases hs
  | copyConstruct i j =>
    simp only [step] at hs
    split at hs
    · rename_i x hi hj
      cases hs
      have hij : j ≠ i := by rintro rfl; rw [hi] at hj; cases hj
      rcases x with x | x <;>
      · refine ⟨_, by simp [Call.exec, copyConstruct, hj, holding, hij]; rfl, ?_⟩
        agree i, j
    · cases hs
  | moveConstruct i j =>
    simp only [step] at hs
    split at hs
    · rename_i x hi hj
      cases hs
      have hij : j ≠ i := by rintro rfl; rw [hi] at hj; cases hj
      rcases x with x | x <;>
      · refine ⟨_, by
          simp [Call.exec, moveConstruct, hj, holding, hij, hij.symm, takeVal, takeErr]; rfl, ?_⟩
        agree i, j
    · cases hs
  | delete i =>
    simp only [step] at hs
    split at hs
    · cases hs
    · rename_i hi
      cases hs
      obtain ⟨x, hx⟩ := Option.ne_none_iff_exists'.mp hi
      rcases x with x | x <;>
      · refine ⟨_, by simp [Call.exec, Exp.delete, release, hx, holding]; rfl, ?_⟩
        agree i, i
  | copyAssign i j =>
    simp only [step] at hs
    split at hs
    · rename_i y x hi hj
      cases hs
      by_cases hij : j = i
      · subst hij
        rw [hi] at hj
        cases hj
        rcases y with y | y <;> cases tc <;> cases tm <;>
        · refine ⟨_, by simp [Call.exec, copyAssign, assignCommonCopy, hi, holding, assignVal,
            assignErr]; rfl, ?_⟩
          agree j, j
      rcases x with x | x <;> rcases y with y | y <;> cases tc <;> cases tm <;>
      · refine ⟨_, by simp [Call.exec, copyAssign, copyAssign.construct, assignCommonCopy, hi, hj,
          holding, assignVal, assignErr, takeErr, hij]; rfl, ?_⟩
        agree i, j
    · cases hs
  | moveAssign i j =>
    simp only [step] at hs
    split at hs
    · rename_i y x hi hj
      by_cases hij : j = i
      · subst hij
        rw [hi] at hj
        cases hj
        rw [if_pos rfl] at hs
        cases hs
        rcases y with y | y <;> cases tm <;>
        · refine ⟨_, by simp [Call.exec, moveAssign, assignCommonMove, hi, holding, moveAssignVal,
            moveAssignErr]; rfl, ?_⟩
          agree j, j
      rw [if_neg fun h => hij h.symm] at hs
      cases hs
      have hij' : ¬ i = j := fun h => hij h.symm
      rcases x with x | x <;> rcases y with y | y <;> cases tm <;>
      · refine ⟨_, by simp [Call.exec, moveAssign, moveAssign.construct, assignCommonMove, hi, hj,
          holding, moveAssignVal, moveAssignErr, assignVal, assignErr, takeErr, takeVal, hij, hij']
                      rfl, ?_⟩
        agree i, j
    · cases hs
  | assignValue i src =>
    simp only [step] at hs
    split at hs
    · cases hs
    · rename_i hi
      cases hs
      obtain ⟨x, hx⟩ := Option.ne_none_iff_exists'.mp hi
      rcases x with x | x <;> rcases src with v | v <;> cases tc <;> cases tm <;>
      · refine ⟨_, by simp [Call.exec, assignValue, hx, holding, assignVal, takeErr, assignErr,
          Src.nothrow]; rfl, ?_⟩
        agree i, i
  | assignUnexpected i src =>
    simp only [step] at hs
    split at hs
    · cases hs
    · rename_i hi
      cases hs
      obtain ⟨x, hx⟩ := Option.ne_none_iff_exists'.mp hi
      rcases x with x | x <;> rcases src with v | v <;>
      · refine ⟨_, by simp [Call.exec, assignUnexpected, hx, holding, assignErr]; rfl, ?_⟩
        agree i, i
  | emplace i nothrow v =>
    simp only [step] at hs
    split at hs
    · cases hs
    · rename_i hi
      cases hs
      obtain ⟨x, hx⟩ := Option.ne_none_iff_exists'.mp hi
      rcases x with x | x <;> cases nothrow <;>
      · refine ⟨_, by simp [Call.exec, emplace, hx, holding, takeErr]; rfl, ?_⟩
        agree i, i
  | emplaceList i nothrow v =>
    simp only [step] at hs
    split at hs
    · cases hs
    · rename_i hi
      cases hs
      obtain ⟨x, hx⟩ := Option.ne_none_iff_exists'.mp hi
      rcases x with x | x <;> cases nothrow <;>
      · refine ⟨_, by simp [Call.exec, emplaceList, hx, holding, takeErr, assignVal]; rfl, ?_⟩
        agree i, i
  | swap i j =>
    simp only [step] at hs
    split at hs
    · rename_i y x hi hj
      cases hs
      by_cases hij : j = i
      · subst hij
        rw [hi] at hj
        cases hj
        rcases y with y | y <;>
        · refine ⟨_, by simp [Call.exec, swap, hi, holding, swapVal, swapErr]; rfl, ?_⟩
          agree j, j
      have hij' : ¬ i = j := fun h => hij h.symm
      rcases x with x | x <;> rcases y with y | y <;> cases tm <;> cases em <;>
      · refine ⟨_, by simp [Call.exec, swap, hi, hj, holding, swapVal, swapErr, swapOne, swapHas,
          takeVal, takeErr, hij, hij']; rfl, ?_⟩
        agree i, j
    · cases hs

theorem outcome_newVal (ht : NothrowMove t) (he : NothrowMove e) (i : ℕ) (src : Src T) (s s' : Store T E)
    (o : List Bool) (l : ℕ) (hs : step t e s (.newVal i src) = some s')
    (hc : Callable e (.newVal i src : Call T E)) (hr : ¬ Risky t (.newVal i src : Call T E)) :
    Outcome s s' l (.newVal i src)
      ((Call.newVal i src).exec t e ⟨fun i => (s i).map holding, o, l⟩) := by
  obtain ⟨tc, tm, tca, tma, tmd, tsm, tsp⟩ := t
  obtain ⟨ec, em, eca, ema, emd, esm, esp⟩ := e
  obtain ⟨h1, h2⟩ := ht
  obtain ⟨h3, h4⟩ := he
  simp only at h1 h2 h3 h4
  subst h1 h2 h3 h4
  simp only [step] at hs
  split at hs
  · cases hs
    rcases src with v | v <;> cases tc <;> rcases o with _ | ⟨_ | _, o⟩ <;>
      simp [Call.exec, newVal, Src.nothrow, Outcome, Holds, Moves]
    all_goals first
      | exact ⟨s, fun _ => rfl, fun _ => rfl⟩
      | agree i, i
  · cases hs

theorem outcome_newErr (ht : NothrowMove t) (he : NothrowMove e) (i : ℕ) (src : Src E) (s s' : Store T E)
    (o : List Bool) (l : ℕ) (hs : step t e s (.newErr i src) = some s')
    (hc : Callable e (.newErr i src : Call T E)) (hr : ¬ Risky t (.newErr i src : Call T E)) :
    Outcome s s' l (.newErr i src)
      ((Call.newErr i src).exec t e ⟨fun i => (s i).map holding, o, l⟩) := by
  obtain ⟨tc, tm, tca, tma, tmd, tsm, tsp⟩ := t
  obtain ⟨ec, em, eca, ema, emd, esm, esp⟩ := e
  obtain ⟨h1, h2⟩ := ht
  obtain ⟨h3, h4⟩ := he
  simp only at h1 h2 h3 h4
  subst h1 h2 h3 h4
  simp only [step] at hs
  split at hs
  · cases hs
    rcases src with v | v <;> cases ec <;> rcases o with _ | ⟨_ | _, o⟩ <;>
      simp [Call.exec, newErr, Src.nothrow, Outcome, Holds, Moves]
    all_goals first
      | exact ⟨s, fun _ => rfl, fun _ => rfl⟩
      | agree i, i
  · cases hs

theorem outcome_copyConstruct (ht : NothrowMove t) (he : NothrowMove e) (i : ℕ) (j : ℕ) (s s' : Store T E)
    (o : List Bool) (l : ℕ) (hs : step t e s (.copyConstruct i j) = some s')
    (hc : Callable e (.copyConstruct i j : Call T E)) (hr : ¬ Risky t (.copyConstruct i j : Call T E)) :
    Outcome s s' l (.copyConstruct i j)
      ((Call.copyConstruct i j).exec t e ⟨fun i => (s i).map holding, o, l⟩) := by
  obtain ⟨tc, tm, tca, tma, tmd, tsm, tsp⟩ := t
  obtain ⟨ec, em, eca, ema, emd, esm, esp⟩ := e
  obtain ⟨h1, h2⟩ := ht
  obtain ⟨h3, h4⟩ := he
  simp only at h1 h2 h3 h4
  subst h1 h2 h3 h4
  simp only [step] at hs
  split at hs
  · rename_i x hi hj
    cases hs
    have hij : j ≠ i := by rintro rfl; rw [hi] at hj; cases hj
    rcases x with x | x <;> cases tc <;> cases ec <;> rcases o with _ | ⟨_ | _, o⟩ <;>
      simp [Call.exec, copyConstruct, hj, holding, hij, Outcome, Holds, Copies]
    all_goals agree i, j
  · cases hs

theorem outcome_moveConstruct (ht : NothrowMove t) (he : NothrowMove e) (i : ℕ) (j : ℕ) (s s' : Store T E)
    (o : List Bool) (l : ℕ) (hs : step t e s (.moveConstruct i j) = some s')
    (hc : Callable e (.moveConstruct i j : Call T E)) (hr : ¬ Risky t (.moveConstruct i j : Call T E)) :
    Outcome s s' l (.moveConstruct i j)
      ((Call.moveConstruct i j).exec t e ⟨fun i => (s i).map holding, o, l⟩) := by
  obtain ⟨tc, tm, tca, tma, tmd, tsm, tsp⟩ := t
  obtain ⟨ec, em, eca, ema, emd, esm, esp⟩ := e
  obtain ⟨h1, h2⟩ := ht
  obtain ⟨h3, h4⟩ := he
  simp only at h1 h2 h3 h4
  subst h1 h2 h3 h4
  simp only [step] at hs
  split at hs
  · rename_i x hi hj
    cases hs
    have hij : j ≠ i := by rintro rfl; rw [hi] at hj; cases hj
    rcases x with x | x <;>
      simp [Call.exec, moveConstruct, hj, holding, hij, hij.symm, takeVal, takeErr, Outcome,
        Holds]
    all_goals agree i, j
  · cases hs

theorem outcome_delete (ht : NothrowMove t) (he : NothrowMove e) (i : ℕ) (s s' : Store T E)
    (o : List Bool) (l : ℕ) (hs : step t e s (.delete i) = some s')
    (hc : Callable e (.delete i : Call T E)) (hr : ¬ Risky t (.delete i : Call T E)) :
    Outcome s s' l (.delete i)
      ((Call.delete i).exec t e ⟨fun i => (s i).map holding, o, l⟩) := by
  obtain ⟨tc, tm, tca, tma, tmd, tsm, tsp⟩ := t
  obtain ⟨ec, em, eca, ema, emd, esm, esp⟩ := e
  obtain ⟨h1, h2⟩ := ht
  obtain ⟨h3, h4⟩ := he
  simp only at h1 h2 h3 h4
  subst h1 h2 h3 h4
  simp only [step] at hs
  split at hs
  · cases hs
  · rename_i hi
    cases hs
    obtain ⟨x, hx⟩ := Option.ne_none_iff_exists'.mp hi
    rcases x with x | x <;> simp [Call.exec, Exp.delete, release, hx, holding, Outcome, Holds]
    all_goals agree i, i

theorem outcome_copyAssign (ht : NothrowMove t) (he : NothrowMove e) (i : ℕ) (j : ℕ) (s s' : Store T E)
    (o : List Bool) (l : ℕ) (hs : step t e s (.copyAssign i j) = some s')
    (hc : Callable e (.copyAssign i j : Call T E)) (hr : ¬ Risky t (.copyAssign i j : Call T E)) :
    Outcome s s' l (.copyAssign i j)
      ((Call.copyAssign i j).exec t e ⟨fun i => (s i).map holding, o, l⟩) := by
  obtain ⟨tc, tm, tca, tma, tmd, tsm, tsp⟩ := t
  obtain ⟨ec, em, eca, ema, emd, esm, esp⟩ := e
  obtain ⟨h1, h2⟩ := ht
  obtain ⟨h3, h4⟩ := he
  simp only at h1 h2 h3 h4
  subst h1 h2 h3 h4
  simp only [step] at hs
  split at hs
  · rename_i y x hi hj
    cases hs
    by_cases hij : j = i
    · subst hij
      rw [hi] at hj
      cases hj
      rcases y with y | y <;> cases tc <;> cases tca <;> cases eca <;>
        rcases o with _ | ⟨_ | _, o⟩ <;>
        simp [Call.exec, copyAssign, assignCommonCopy, hi, holding, assignVal, assignErr,
          Src.nothrowAssign, Outcome, Holds, Copies]
      all_goals agree j, j
    rcases x with x | x <;> rcases y with y | y
    · cases tc <;> cases tca <;> rcases o with _ | ⟨_ | _, o⟩ <;>
        simp [Call.exec, copyAssign, assignCommonCopy, hi, hj, holding, assignVal,
          Src.nothrowAssign, Outcome, Holds, Copies]
      all_goals agree i, j
    · cases tc <;> rcases o with _ | ⟨_ | _, o⟩ <;>
        simp [Call.exec, copyAssign, copyAssign.construct, hi, hj, holding, hij, Outcome, Holds,
          Copies]
      all_goals agree i, j
    · cases tc <;> cases ec <;> rcases o with _ | ⟨_ | _, o⟩ <;>
        simp [Call.exec, copyAssign, assignCommonCopy, hi, hj, holding, hij, Outcome, Holds, Copies]
      all_goals agree i, j
    · cases tc <;> cases eca <;> rcases o with _ | ⟨_ | _, o⟩ <;>
        simp [Call.exec, copyAssign, assignCommonCopy, hi, hj, holding, assignErr,
          Src.nothrowAssign, Outcome, Holds, Copies]
      all_goals agree i, j
  · cases hs

theorem outcome_moveAssign (ht : NothrowMove t) (he : NothrowMove e) (i : ℕ) (j : ℕ) (s s' : Store T E)
    (o : List Bool) (l : ℕ) (hs : step t e s (.moveAssign i j) = some s')
    (hc : Callable e (.moveAssign i j : Call T E)) (hr : ¬ Risky t (.moveAssign i j : Call T E)) :
    Outcome s s' l (.moveAssign i j)
      ((Call.moveAssign i j).exec t e ⟨fun i => (s i).map holding, o, l⟩) := by
  obtain ⟨tc, tm, tca, tma, tmd, tsm, tsp⟩ := t
  obtain ⟨ec, em, eca, ema, emd, esm, esp⟩ := e
  obtain ⟨h1, h2⟩ := ht
  obtain ⟨h3, h4⟩ := he
  simp only at h1 h2 h3 h4
  subst h1 h2 h3 h4
  simp only [step] at hs
  split at hs
  · rename_i y x hi hj
    by_cases hij : j = i
    · subst hij
      rw [hi] at hj
      cases hj
      rw [if_pos rfl] at hs
      cases hs
      rcases y with y | y <;>
        simp [Call.exec, moveAssign, assignCommonMove, hi, holding, moveAssignVal,
          moveAssignErr, Outcome, Holds]
      all_goals agree j, j
    rw [if_neg fun h => hij h.symm] at hs
    cases hs
    have hij' : ¬ i = j := fun h => hij h.symm
    rcases x with x | x <;> rcases y with y | y <;>
      simp [Call.exec, moveAssign, moveAssign.construct, assignCommonMove, hi, hj,
        holding, moveAssignVal, moveAssignErr, assignVal, assignErr, takeErr, takeVal, hij, hij',
        Src.nothrowAssign, Outcome, Holds]
    all_goals agree i, j
  · cases hs

theorem outcome_assignValue (ht : NothrowMove t) (he : NothrowMove e) (i : ℕ) (src : Src T) (s s' : Store T E)
    (o : List Bool) (l : ℕ) (hs : step t e s (.assignValue i src) = some s')
    (hc : Callable e (.assignValue i src : Call T E)) (hr : ¬ Risky t (.assignValue i src : Call T E)) :
    Outcome s s' l (.assignValue i src)
      ((Call.assignValue i src).exec t e ⟨fun i => (s i).map holding, o, l⟩) := by
  obtain ⟨tc, tm, tca, tma, tmd, tsm, tsp⟩ := t
  obtain ⟨ec, em, eca, ema, emd, esm, esp⟩ := e
  obtain ⟨h1, h2⟩ := ht
  obtain ⟨h3, h4⟩ := he
  simp only at h1 h2 h3 h4
  subst h1 h2 h3 h4
  simp only [step] at hs
  split at hs
  · cases hs
  · rename_i hi
    cases hs
    obtain ⟨x, hx⟩ := Option.ne_none_iff_exists'.mp hi
    rcases x with x | x <;> rcases src with v | v <;> cases tc <;> cases tca <;>
      simp only [Risky, not_true_eq_false, not_false_eq_true, Bool.true_eq_false] at hr <;>
      rcases o with _ | ⟨_ | _, o⟩ <;>
      simp [Call.exec, assignValue, hx, holding, assignVal, Src.nothrow, Src.nothrowAssign,
        Outcome, Holds, Moves]
    all_goals first
      | agree i, i
      | (refine ⟨s.put i (some (.inl (tsp x v))), fun k => ?_, ?_⟩
         · by_cases hk : k = i <;> simp [Store.put, hk, hx]
         · agree i, i)

theorem outcome_assignUnexpected (ht : NothrowMove t) (he : NothrowMove e) (i : ℕ) (src : Src E) (s s' : Store T E)
    (o : List Bool) (l : ℕ) (hs : step t e s (.assignUnexpected i src) = some s')
    (hc : Callable e (.assignUnexpected i src : Call T E)) (hr : ¬ Risky t (.assignUnexpected i src : Call T E)) :
    Outcome s s' l (.assignUnexpected i src)
      ((Call.assignUnexpected i src).exec t e ⟨fun i => (s i).map holding, o, l⟩) := by
  obtain ⟨tc, tm, tca, tma, tmd, tsm, tsp⟩ := t
  obtain ⟨ec, em, eca, ema, emd, esm, esp⟩ := e
  obtain ⟨h1, h2⟩ := ht
  obtain ⟨h3, h4⟩ := he
  simp only at h1 h2 h3 h4
  subst h1 h2 h3 h4
  simp only [step] at hs
  split at hs
  · cases hs
  · rename_i hi
    cases hs
    obtain ⟨x, hx⟩ := Option.ne_none_iff_exists'.mp hi
    rcases x with x | x <;> rcases src with v | v <;> cases ec <;> cases eca <;>
      simp only [Callable, Bool.false_eq_true] at hc <;>
      rcases o with _ | ⟨_ | _, o⟩ <;>
      simp [Call.exec, assignUnexpected, hx, holding, assignErr, Src.nothrow, Src.nothrowAssign,
        Outcome, Holds, Moves]
    all_goals first
      | agree i, i
      | (refine ⟨s.put i (some (.inr (esp x v))), fun k => ?_, ?_⟩
         · by_cases hk : k = i <;> simp [Store.put, hk, hx]
         · agree i, i)

theorem outcome_emplace (ht : NothrowMove t) (he : NothrowMove e) (i : ℕ) (nothrow : Bool) (v : T) (s s' : Store T E)
    (o : List Bool) (l : ℕ) (hs : step t e s (.emplace i nothrow v) = some s')
    (hc : Callable e (.emplace i nothrow v : Call T E)) (hr : ¬ Risky t (.emplace i nothrow v : Call T E)) :
    Outcome s s' l (.emplace i nothrow v)
      ((Call.emplace i nothrow v).exec t e ⟨fun i => (s i).map holding, o, l⟩) := by
  obtain ⟨tc, tm, tca, tma, tmd, tsm, tsp⟩ := t
  obtain ⟨ec, em, eca, ema, emd, esm, esp⟩ := e
  obtain ⟨h1, h2⟩ := ht
  obtain ⟨h3, h4⟩ := he
  simp only at h1 h2 h3 h4
  subst h1 h2 h3 h4
  simp only [step] at hs
  split at hs
  · cases hs
  · rename_i hi
    cases hs
    obtain ⟨x, hx⟩ := Option.ne_none_iff_exists'.mp hi
    cases nothrow
    · exact absurd rfl hr
    rcases x with x | x <;> simp [Call.exec, emplace, hx, holding, Outcome, Holds]
    all_goals agree i, i

theorem outcome_emplaceList (ht : NothrowMove t) (he : NothrowMove e) (i : ℕ) (nothrow : Bool) (v : T) (s s' : Store T E)
    (o : List Bool) (l : ℕ) (hs : step t e s (.emplaceList i nothrow v) = some s')
    (hc : Callable e (.emplaceList i nothrow v : Call T E)) (hr : ¬ Risky t (.emplaceList i nothrow v : Call T E)) :
    Outcome s s' l (.emplaceList i nothrow v)
      ((Call.emplaceList i nothrow v).exec t e ⟨fun i => (s i).map holding, o, l⟩) := by
  obtain ⟨tc, tm, tca, tma, tmd, tsm, tsp⟩ := t
  obtain ⟨ec, em, eca, ema, emd, esm, esp⟩ := e
  obtain ⟨h1, h2⟩ := ht
  obtain ⟨h3, h4⟩ := he
  simp only at h1 h2 h3 h4
  subst h1 h2 h3 h4
  simp only [step] at hs
  split at hs
  · cases hs
  · rename_i hi
    cases hs
    obtain ⟨x, hx⟩ := Option.ne_none_iff_exists'.mp hi
    cases nothrow
    · exact absurd rfl hr
    rcases x with x | x <;> simp [Call.exec, emplaceList, hx, holding, assignVal, Src.nothrowAssign, Outcome, Holds]
    all_goals agree i, i

theorem outcome_swap (ht : NothrowMove t) (he : NothrowMove e) (i : ℕ) (j : ℕ) (s s' : Store T E)
    (o : List Bool) (l : ℕ) (hs : step t e s (.swap i j) = some s')
    (hc : Callable e (.swap i j : Call T E)) (hr : ¬ Risky t (.swap i j : Call T E)) :
    Outcome s s' l (.swap i j)
      ((Call.swap i j).exec t e ⟨fun i => (s i).map holding, o, l⟩) := by
  obtain ⟨tc, tm, tca, tma, tmd, tsm, tsp⟩ := t
  obtain ⟨ec, em, eca, ema, emd, esm, esp⟩ := e
  obtain ⟨h1, h2⟩ := ht
  obtain ⟨h3, h4⟩ := he
  simp only at h1 h2 h3 h4
  subst h1 h2 h3 h4
  simp only [step] at hs
  split at hs
  · rename_i y x hi hj
    cases hs
    by_cases hij : j = i
    · subst hij
      rw [hi] at hj
      cases hj
      rcases y with y | y <;>
        simp [Call.exec, swap, hi, holding, swapVal, swapErr, Outcome, Holds]
      all_goals agree j, j
    have hij' : ¬ i = j := fun h => hij h.symm
    rcases x with x | x <;> rcases y with y | y <;>
      simp [Call.exec, swap, hi, hj, holding, swapVal, swapErr, swapOne, swapHas,
        takeVal, takeErr, hij, hij', Outcome, Holds]
    all_goals agree i, j
  · cases hs

/-- What may come of a call. -/
theorem exec_outcome (ht : NothrowMove t) (he : NothrowMove e) (c : Call T E) (s s' : Store T E)
    (o : List Bool) (l : ℕ) (hs : step t e s c = some s') (hc : Callable e c) (hr : ¬ Risky t c) :
    Outcome s s' l c (c.exec t e ⟨fun i => (s i).map holding, o, l⟩) := by
  cases c with
  | newVal i src => exact outcome_newVal t e ht he i src s s' o l hs hc hr
  | newErr i src => exact outcome_newErr t e ht he i src s s' o l hs hc hr
  | copyConstruct i j => exact outcome_copyConstruct t e ht he i j s s' o l hs hc hr
  | moveConstruct i j => exact outcome_moveConstruct t e ht he i j s s' o l hs hc hr
  | delete i => exact outcome_delete t e ht he i s s' o l hs hc hr
  | copyAssign i j => exact outcome_copyAssign t e ht he i j s s' o l hs hc hr
  | moveAssign i j => exact outcome_moveAssign t e ht he i j s s' o l hs hc hr
  | assignValue i src => exact outcome_assignValue t e ht he i src s s' o l hs hc hr
  | assignUnexpected i src => exact outcome_assignUnexpected t e ht he i src s s' o l hs hc hr
  | emplace i nothrow v => exact outcome_emplace t e ht he i nothrow v s s' o l hs hc hr
  | emplaceList i nothrow v => exact outcome_emplaceList t e ht he i nothrow v s s' o l hs hc hr
  | swap i j => exact outcome_swap t e ht he i j s s' o l hs hc hr

end Lifetimes

end Trajopt.Exp
