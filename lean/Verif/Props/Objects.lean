import Verif.Model.Objects
import Verif.Spec.Provenance
import Mathlib.Data.Int.Notation
import Mathlib.Data.Nat.Notation
import Mathlib.Tactic.Common

/-!
# C87 Generators that are copied or moved

A generator reports its own progress to its own callbacks, until it is copied or moved.
-/

set_option autoImplicit false

namespace Trajopt.Props

open Spec

/-- The addresses an operation constructs, writes or destroys. -/
def touched : ObjectOp → List ℕ
  | .make o _ _ => [o]
  | .copy _ dst => [dst]
  | .move src dst => [src, dst]
  | .assign _ dst => [dst]
  | .moveAssign src dst => [src, dst]
  | .destroy o => [o]

theorem put_other (h : Heap) {o p : ℕ} (x : Option Object) (hne : p ≠ o) : h.put o x p = h p := by
  simp [Heap.put, hne]

theorem put_same (h : Heap) (o : ℕ) (x : Option Object) : h.put o x o = x := by simp [Heap.put]

/-- What an operation does not touch stays. -/
theorem step_untouched {h h' : Heap} {op : ObjectOp} (hs : h.step op = .ok h') {p : ℕ}
    (hp : p ∉ touched op) : h' p = h p := by
  cases op <;> simp only [touched, List.mem_cons, List.not_mem_nil, or_false, not_or] at hp
  case make o r k =>
    simp only [Heap.step, Heap.free] at hs
    cases ho : h o <;> rw [ho] at hs <;> cases hs
    exact put_other _ _ hp
  case copy src dst =>
    simp only [Heap.step, Heap.free, Heap.get] at hs
    cases ho : h src <;> cases hd : h dst <;> rw [ho, hd] at hs <;> cases hs
    exact put_other _ _ hp
  case move src dst =>
    simp only [Heap.step, Heap.free, Heap.get] at hs
    cases ho : h src <;> cases hd : h dst <;> rw [ho, hd] at hs <;> cases hs
    rw [put_other _ _ hp.1, put_other _ _ hp.2]
  case assign src dst =>
    simp only [Heap.step, Heap.get] at hs
    cases ho : h src <;> cases hd : h dst <;> rw [ho, hd] at hs <;> cases hs
    exact put_other _ _ hp
  case moveAssign src dst =>
    simp only [Heap.step, Heap.get] at hs
    by_cases he : src = dst
    · simp only [if_pos he] at hs
      cases ho : h src <;> cases hd : h dst <;> rw [ho, hd] at hs <;> cases hs
    · simp only [if_neg he] at hs
      cases ho : h src <;> cases hd : h dst <;> rw [ho, hd] at hs <;> cases hs
      rw [put_other _ _ hp.1, put_other _ _ hp.2]
  case destroy o =>
    simp only [Heap.step, Heap.get] at hs
    cases ho : h o <;> rw [ho] at hs <;> cases hs
    exact put_other _ _ hp

theorem run_ok_cons {h h' : Heap} {op : ObjectOp} {ops : List ObjectOp}
    (hr : h.run (op :: ops) = .ok h') : ∃ h1, h.step op = .ok h1 ∧ h1.run ops = .ok h' := by
  simp only [Heap.run] at hr
  cases hs : h.step op with
  | ok h1 => rw [hs] at hr; exact ⟨h1, rfl, hr⟩
  | error f => rw [hs] at hr; cases hr

theorem run_untouched {ops : List ObjectOp} : ∀ {h h' : Heap}, h.run ops = .ok h' → ∀ {p : ℕ},
    (∀ op ∈ ops, p ∉ touched op) → h' p = h p := by
  induction ops with
  | nil => intro h h' hr p _; cases hr; rfl
  | cons op ops ih =>
    intro h h' hr p hp
    obtain ⟨h1, hs, hr⟩ := run_ok_cons hr
    rw [ih hr fun op hop => hp op (List.mem_cons_of_mem _ hop),
      step_untouched hs (hp op List.mem_cons_self)]

/-- The generators that the closures of the one at `o` capture. -/
def captured (h : Heap) (o : ℕ) : List ℕ :=
  match h o with
  | some x => x.callbacks.map (·.this)
  | none => []

theorem progress_congr {h h' : Heap} {o o' : ℕ} (h0 : h' o' = h o)
    (he : ∀ p ∈ captured h o, h' p = h p) : h'.progress o' = h.progress o := by
  simp only [Heap.progress, Heap.get, h0]
  cases hx : h o with
  | none => rfl
  | some x =>
    have : ∀ cs : List Closure, (∀ c ∈ cs, h' c.this = h c.this) →
        cs.mapM h'.fire = cs.mapM h.fire := by
      intro cs
      induction cs with
      | nil => intro _; rfl
      | cons c cs ih =>
        intro hcs
        rw [List.mapM_cons, List.mapM_cons, ih fun c hc => hcs c (List.mem_cons_of_mem _ hc)]
        simp only [Heap.fire, Heap.get, hcs c List.mem_cons_self]
    have hcs := this x.callbacks fun c hc => he c.this (by
      simp only [captured, hx]
      exact List.mem_map_of_mem hc)
    change (x.callbacks.mapM h'.fire >>= _) = (x.callbacks.mapM h.fire >>= _)
    rw [hcs]

/-- C87: as long as a program neither copies nor moves generators, whatever it does otherwise, an
existing generator calls exactly the callbacks of the path it was made from, in their order, with its
own solution and the handle it was given. -/
theorem C87_own (ops : List ObjectOp) (h : Heap)
    (hops : ∀ op ∈ ops, ∀ src dst, op ≠ .copy src dst ∧ op ≠ .move src dst ∧
      op ≠ .assign src dst ∧ op ≠ .moveAssign src dst)
    (hr : Heap.run (fun _ => none) ops = .ok h) (o : ℕ) (ho : h o ≠ none) :
    ∃ pre registered handle post, ops = pre ++ .make o registered handle :: post ∧
      (∀ op ∈ post, o ∉ touched op) ∧
      h.progress o = .ok (registered.map fun callback => ⟨o, callback, handle⟩) := by
  -- the last operation that touched `o` is its construction
  suffices key : ∀ (ops : List ObjectOp) (h0 : Heap), (∀ op ∈ ops, ∀ src dst, op ≠ .copy src dst ∧
      op ≠ .move src dst ∧ op ≠ .assign src dst ∧ op ≠ .moveAssign src dst) →
      h0.run ops = .ok h → (∃ op ∈ ops, o ∈ touched op) →
      ∃ pre registered handle post, ops = pre ++ .make o registered handle :: post ∧
      (∀ op ∈ post, o ∉ touched op) ∧
      h o = some ⟨registered, [⟨o, handle⟩]⟩ by
    by_cases hex : ∃ op ∈ ops, o ∈ touched op
    · obtain ⟨pre, r, k, post, e, hp, hx⟩ := key ops _ hops hr hex
      refine ⟨pre, r, k, post, e, hp, ?_⟩
      have hf : h.fire ⟨o, k⟩ = .ok (r.map fun callback => ⟨o, callback, k⟩) := by
        simp only [Heap.fire, Heap.get, hx]; rfl
      have hm : ([⟨o, k⟩] : List Closure).mapM h.fire =
          .ok [r.map fun callback => ⟨o, callback, k⟩] := by
        rw [List.mapM_cons, List.mapM_nil, hf]; rfl
      simp only [Heap.progress, Heap.get, hx]
      change (([⟨o, k⟩] : List Closure).mapM h.fire >>= _) = _
      rw [hm]
      change Except.ok _ = _
      simp
    · exfalso
      apply ho
      rw [run_untouched hr fun op hop ht => hex ⟨op, hop, ht⟩]
  intro ops
  induction ops with
  | nil => rintro _ _ _ ⟨op, hop, _⟩; cases hop
  | cons op ops ih =>
    intro h0 hops hr hex
    obtain ⟨h1, hs, hr'⟩ := run_ok_cons hr
    by_cases hrest : ∃ op ∈ ops, o ∈ touched op
    · obtain ⟨pre, r, k, post, e, hp, hx⟩ :=
        ih h1 (fun op hop => hops op (List.mem_cons_of_mem _ hop)) hr' hrest
      exact ⟨op :: pre, r, k, post, by rw [e]; rfl, hp, hx⟩
    · have hno : ∀ op ∈ ops, o ∉ touched op := fun op hop ht => hrest ⟨op, hop, ht⟩
      have hop : o ∈ touched op := by
        obtain ⟨op', hop', ht⟩ := hex
        rcases List.mem_cons.mp hop' with rfl | hop'
        · exact ht
        · exact absurd ht (hno _ hop')
      have hno' := hops op List.mem_cons_self
      have hkeep := run_untouched hr' hno
      cases op
      case make p r k =>
        obtain rfl : o = p := by simpa [touched] using hop
        refine ⟨[], r, k, ops, rfl, hno, ?_⟩
        rw [hkeep]
        simp only [Heap.step, Heap.free] at hs
        cases hp : h0 o <;> rw [hp] at hs <;> cases hs
        exact put_same _ _ _
      case copy s d => exact absurd rfl (hno' s d).1
      case move s d => exact absurd rfl (hno' s d).2.1
      case assign s d => exact absurd rfl (hno' s d).2.2.1
      case moveAssign s d => exact absurd rfl (hno' s d).2.2.2
      case destroy p =>
        obtain rfl : o = p := by simpa [touched] using hop
        exfalso
        apply ho
        rw [hkeep]
        simp only [Heap.step, Heap.get] at hs
        cases hp : h0 o <;> rw [hp] at hs <;> cases hs
        exact put_same _ _ _

/-- C87: a copy reports what its original reports, and goes on doing so as long as neither it nor
the generators its closures capture are touched.  Missing for the full claim: that it reports its own
progress. -/
theorem C87_copy_partial (h h1 h2 : Heap) (src dst : ℕ) (ops : List ObjectOp)
    (hc : h.step (.copy src dst) = .ok h1) (hr : h1.run ops = .ok h2) (hdst : dst ∉ captured h src)
    (hops : ∀ op ∈ ops, dst ∉ touched op ∧ ∀ p ∈ captured h src, p ∉ touched op) :
    h2.progress dst = h.progress src := by
  refine progress_congr ?_ ?_
  · rw [run_untouched hr fun op hop => (hops op hop).1]
    simp only [Heap.step, Heap.free, Heap.get] at hc
    cases ho : h src <;> cases hd : h dst <;> rw [ho, hd] at hc <;> cases hc
    exact put_same _ _ _
  · intro p hp
    rw [run_untouched hr fun op hop => (hops op hop).2 p hp]
    exact step_untouched hc (by
      simp only [touched, List.mem_singleton]
      rintro rfl; exact hdst hp)

/-- The object that a content stands for. -/
def Spec.Content.object : Spec.Content → Option Object
  | .absent => none
  | .emptied => some ⟨[], []⟩
  | .made place registered handle => some ⟨registered, [⟨place, handle⟩]⟩

theorem object_none {c : Spec.Content} : Spec.Content.object c = none ↔ c = .absent := by
  cases c <;> simp [Spec.Content.object]

theorem step_content {past : List ObjectOp} {h : Heap}
    (hh : ∀ o, h o = Spec.Content.object (content past o)) (op : ObjectOp) :
    (Allowed past op → ∃ h', h.step op = .ok h' ∧
      ∀ o, h' o = Spec.Content.object (content (op :: past) o)) ∧
    (¬ Allowed past op → h.step op = .error .ub) := by
  cases op <;> simp only [Allowed, ne_eq, ← object_none, ← hh, Heap.step, Heap.free, Heap.get]
  case make o r k =>
    cases ho : h o
    · refine ⟨fun _ => ⟨_, rfl, fun p => ?_⟩, fun hn => absurd trivial (by simp at hn)⟩
      simp only [content, Heap.put]
      split
      · rfl
      · exact hh p
    · exact ⟨fun e => (by cases e), fun _ => rfl⟩
  case copy src dst =>
    cases hs : h src <;> cases hd : h dst
    all_goals
      first
      | (refine ⟨fun e => ?_, fun _ => rfl⟩; simp at e)
      | skip
    refine ⟨fun _ => ⟨_, rfl, fun p => ?_⟩, fun hn => by simp at hn⟩
    simp only [content, Heap.put]
    split
    · rw [← hs, hh]
    · exact hh p
  case move src dst =>
    cases hs : h src <;> cases hd : h dst
    all_goals
      first
      | (refine ⟨fun e => ?_, fun _ => rfl⟩; simp at e)
      | skip
    have hne : src ≠ dst := by rintro rfl; rw [hs] at hd; cases hd
    refine ⟨fun _ => ⟨_, rfl, fun p => ?_⟩, fun hn => by simp at hn⟩
    simp only [content, Heap.put]
    by_cases h1 : p = dst
    · rw [if_neg (h1 ▸ hne.symm), if_pos h1, if_pos h1, ← hs, hh]
    · rw [if_neg h1, if_neg h1]
      split
      · rfl
      · exact hh p
  case assign src dst =>
    cases hs : h src <;> cases hd : h dst
    all_goals
      first
      | (refine ⟨fun e => ?_, fun _ => rfl⟩; simp at e)
      | skip
    refine ⟨fun _ => ⟨_, rfl, fun p => ?_⟩, fun hn => by simp at hn⟩
    simp only [content, Heap.put]
    split
    · rw [← hs, hh]
    · exact hh p
  case moveAssign src dst =>
    cases hs : h src <;> cases hd : h dst
    all_goals
      first
      | (refine ⟨fun e => ?_, fun _ => rfl⟩; simp at e)
      | skip
    by_cases hne : src = dst
    · refine ⟨fun e => absurd hne e.2.2, fun _ => ?_⟩
      change (if src = dst then _ else _) = _
      rw [if_pos hne]
    · refine ⟨fun _ => ?_, fun hn => by simp [hne] at hn⟩
      change ∃ h', (if src = dst then _ else _) = _ ∧ _
      rw [if_neg hne]
      refine ⟨_, rfl, fun p => ?_⟩
      simp only [content, Heap.put]
      by_cases h1 : p = dst
      · rw [if_neg (h1 ▸ Ne.symm hne), if_pos h1, if_pos h1, ← hs, hh]
      · rw [if_neg h1, if_neg h1]
        split
        · rfl
        · exact hh p
  case destroy o =>
    cases ho : h o
    · exact ⟨fun e => absurd rfl e, fun _ => rfl⟩
    · refine ⟨fun _ => ⟨_, rfl, fun p => ?_⟩, fun hn => by simp at hn⟩
      simp only [content, Heap.put]
      split
      · rfl
      · exact hh p

theorem run_content : ∀ (ops past : List ObjectOp) (h : Heap),
    (∀ o, h o = Spec.Content.object (content past o)) →
    ((∀ pre op post, ops = pre ++ op :: post → Allowed (pre.reverse ++ past) op) →
      ∃ h', h.run ops = .ok h' ∧ ∀ o, h' o = Spec.Content.object (content (ops.reverse ++ past) o)) ∧
    (¬ (∀ pre op post, ops = pre ++ op :: post → Allowed (pre.reverse ++ past) op) →
      h.run ops = .error .ub) := by
  intro ops
  induction ops with
  | nil =>
    intro past h hh
    exact ⟨fun _ => ⟨h, rfl, hh⟩, fun hn => absurd (fun pre op post e => by simp at e) hn⟩
  | cons op ops ih =>
    intro past h hh
    by_cases ha : Allowed past op
    · obtain ⟨h1, hs, hh1⟩ := (step_content hh op).1 ha
      obtain ⟨i1, i2⟩ := ih (op :: past) h1 hh1
      have hrun : h.run (op :: ops) = h1.run ops := by simp only [Heap.run, hs]; rfl
      rw [hrun]
      have hiff : (∀ pre op' post, op :: ops = pre ++ op' :: post → Allowed (pre.reverse ++ past) op') ↔
          ∀ pre op' post, ops = pre ++ op' :: post → Allowed (pre.reverse ++ op :: past) op' := by
        constructor
        · intro hall pre op' post e
          simpa using hall (op :: pre) op' post (by rw [e]; rfl)
        · intro hall pre op' post e
          cases pre with
          | nil =>
            obtain ⟨rfl, -⟩ := List.cons.inj e
            exact ha
          | cons x pre =>
            obtain ⟨rfl, e'⟩ := List.cons.inj e
            simpa using hall pre op' post e'
      rw [hiff]
      refine ⟨fun hall => ?_, i2⟩
      simpa using i1 hall
    · refine ⟨fun hall => absurd (hall [] op ops rfl) ha, fun _ => ?_⟩
      simp only [Heap.run, (step_content hh op).2 ha]
      rfl

/-- C87: what any program with generators does, copies and moves included.  It is defined exactly if it
constructs generators only where there is none and uses only those that exist; and then every generator
reports what the history says: to the callbacks, and with the solution, of the generator now
at the place where its own content was constructed.  Missing for the full claim: that this is itself. -/
theorem C87_history_partial (ops : List ObjectOp) :
    ((∀ pre op post, ops = pre ++ op :: post → Allowed pre.reverse op) →
      ∃ h, Heap.run (fun _ => none) ops = .ok h ∧ ∀ o, h.progress o = sends ops.reverse o) ∧
    (¬ (∀ pre op post, ops = pre ++ op :: post → Allowed pre.reverse op) →
      Heap.run (fun _ => none) ops = .error .ub) := by
  obtain ⟨h1, h2⟩ := run_content ops [] (fun _ => none) fun _ => rfl
  simp only [List.append_nil] at h1 h2
  refine ⟨fun ha => ?_, h2⟩
  obtain ⟨h, hr, hh⟩ := h1 ha
  refine ⟨h, hr, fun o => ?_⟩
  simp only [Heap.progress, Heap.get, hh, sends]
  cases hc : content ops.reverse o with
  | absent => rfl
  | emptied => rfl
  | made p r k =>
    change (List.mapM h.fire [⟨p, k⟩] >>= fun sent => pure sent.flatten) = _
    simp only [List.mapM_cons, List.mapM_nil, Heap.fire, Heap.get, hh]
    cases hp : content ops.reverse p with
    | absent => rfl
    | emptied => rfl
    | made q r' k' =>
      change Except.ok _ = _
      simp

/-- A generator assigned from one that was moved into: three generators, all of the first one's
content. -/
example : ∃ h, Heap.run (fun _ => none) [.make 0 [7] 3, .make 1 [8] 4, .moveAssign 0 1, .copy 1 2,
    .make 3 [9] 5, .assign 3 0] = .ok h ∧ h.progress 2 = .ok [⟨0, 9, 3⟩] := by
  obtain ⟨h1, h2⟩ := C87_history_partial [.make 0 [7] 3, .make 1 [8] 4, .moveAssign 0 1, .copy 1 2,
    .make 3 [9] 5, .assign 3 0]
  by_cases ha : ∀ pre op post, ([.make 0 [7] 3, .make 1 [8] 4, .moveAssign 0 1, .copy 1 2, .make 3 [9] 5,
      .assign 3 0] : List ObjectOp) = pre ++ op :: post → Allowed pre.reverse op
  swap
  · exact absurd (h2 ha) (by intro e; cases e)
  obtain ⟨h, hr, hp⟩ := h1 ha
  exact ⟨h, hr, (hp 2).trans rfl⟩

/-- C87 as stated is false for copies and moved generators.  Any callbacks and handles:
a copy calls the callbacks with the original's solution;
if the original has been destroyed, progress of its copy, or of the generator it was moved to, is undefined
behaviour;
if another generator has been made at the address of the original, the copy calls that one's callbacks, with
that one's solution and the original's handle;
while the original still exists, a generator it was moved to calls nothing;
a generator that was assigned another one calls that one's callbacks with that one's solution. -/
theorem C87_refuted (registered registered' : List ℕ) (handle handle' : ℤ) :
    (∃ h, Heap.run (fun _ => none) [.make 0 registered handle, .copy 0 1] = .ok h ∧
      h.progress 1 = .ok (registered.map fun c => ⟨0, c, handle⟩)) ∧
    (∃ h, Heap.run (fun _ => none) [.make 0 registered handle, .copy 0 1, .destroy 0] = .ok h ∧
      h.progress 1 = .error .ub) ∧
    (∃ h, Heap.run (fun _ => none) [.make 0 registered handle, .move 0 1, .destroy 0] = .ok h ∧
      h.progress 1 = .error .ub) ∧
    (∃ h, Heap.run (fun _ => none) [.make 0 registered handle, .copy 0 1, .destroy 0,
        .make 0 registered' handle'] = .ok h ∧
      h.progress 1 = .ok (registered'.map fun c => ⟨0, c, handle⟩)) ∧
    (∃ h, Heap.run (fun _ => none) [.make 0 registered handle, .move 0 1] = .ok h ∧
      h.progress 1 = .ok []) ∧
    (∃ h, Heap.run (fun _ => none) [.make 0 registered handle, .make 1 registered' handle',
        .assign 0 1] = .ok h ∧
      h.progress 1 = .ok (registered.map fun c => ⟨0, c, handle⟩)) := by
  refine ⟨⟨_, rfl, ?_⟩, ⟨_, rfl, ?_⟩, ⟨_, rfl, ?_⟩, ⟨_, rfl, ?_⟩, ⟨_, rfl, ?_⟩, ⟨_, rfl, ?_⟩⟩ <;>
  · first
    | rfl
    | (change Except.ok _ = _
       simp)

/-- Two generators, one of them twice. -/
example : ∃ h, Heap.run (fun _ => none) [.make 0 [7] 3, .make 1 [7, 8] 4, .destroy 0,
    .make 0 [9] 5] = .ok h ∧ h.progress 0 = .ok [⟨0, 9, 5⟩] ∧
    h.progress 1 = .ok [⟨1, 7, 4⟩, ⟨1, 8, 4⟩] := ⟨_, rfl, rfl, rfl⟩

/-- A copy of a copy, the copy in between destroyed: still what the original reports. -/
example : ∃ h h1 h2, Heap.run (fun _ => none) [.make 0 [7] 3, .copy 0 1] = .ok h ∧
    h.step (.copy 1 2) = .ok h1 ∧ h1.run [.destroy 1] = .ok h2 ∧
    (2 : ℕ) ∉ captured h 1 ∧ (∀ op ∈ [ObjectOp.destroy 1],
      2 ∉ touched op ∧ ∀ p ∈ captured h 1, p ∉ touched op) ∧ h2.progress 2 = .ok [⟨0, 7, 3⟩] := by
  refine ⟨_, _, _, rfl, rfl, rfl, by decide, by decide, rfl⟩

end Trajopt.Props
