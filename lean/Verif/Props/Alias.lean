import Verif.Spec.Alias
import Verif.Props.History
import Verif.Model.Real

/-!
# C100 Constraints that are in the path already
-/

set_option autoImplicit false

namespace Trajopt.Props

open Spec Builder

variable {D : Type} [Dbl D]

omit [Dbl D] in
/-- What appending does, in terms of lists and buffers. -/
theorem pushBack_eq (grow : ℕ → ℕ) {m : Memory D} {i : ℕ} {s : Slot} {a : Arg D} {c : Constraint D}
    (hi : i < m.builder.path.waypoints.length) (ha : m.read a = .ok c) :
    ∃ m', m.pushBack grow i s a = (m', none) ∧ m.pushBack grow i s (.temporary c) = (m', none) ∧
      m'.builder.path.waypoints.length = m.builder.path.waypoints.length ∧
      (∀ j t, m'.list j t = if j = i ∧ t = s then m.list j t ++ [c] else m.list j t) ∧
      (∀ j t, ¬(j = i ∧ t = s) → m'.buffer j t = m.buffer j t) ∧
      (m'.buffer i s).number = (m.buffer i s).number +
        (if (m.list i s).length = (m.buffer i s).capacity then 1 else 0) := by
  have ht : m.read (.temporary c) = .ok c := rfl
  simp only [Memory.pushBack, if_pos hi, ha, ht]
  refine ⟨_, rfl, rfl, ?_, ?_, ?_, ?_⟩
  · simp [modifyWpt, hi]
  · intro j t
    simp only [Memory.list, modifyWpt, if_pos hi, List.getElem?_modify]
    cases hw : m.builder.path.waypoints[j]? with
    | none =>
      have : ¬(j = i ∧ t = s) := by
        rintro ⟨rfl, -⟩
        rw [List.getElem?_eq_none_iff] at hw
        omega
      simp [this]
    | some w =>
      by_cases hj : i = j
      · subst hj
        cases s <;> cases t <;> simp [Waypoint.list, pushWpt, pushSgmt]
      · have : ¬(j = i ∧ t = s) := fun h => hj h.1.symm
        simp [hj, this]
  · intro j t h
    simp [h]
  · simp only [and_self, if_true]
    split_ifs <;> rfl

omit [Dbl D] in
theorem read_push {m m' : Memory D} {i j pos num : ℕ} {s t : Slot} {c : Constraint D}
    (hr : m.read (.element j t pos num) = .ok c)
    (hl : ∀ j t, m'.list j t = if j = i ∧ t = s then m.list j t ++ [c] else m.list j t)
    (hb : ∀ j t, ¬(j = i ∧ t = s) → m'.buffer j t = m.buffer j t)
    (hn : (m'.buffer i s).number = (m.buffer i s).number +
        (if (m.list i s).length = (m.buffer i s).capacity then 1 else 0)) :
    m'.read (.element j t pos num) =
      if (j = i ∧ t = s) ∧ (m.list i s).length = (m.buffer i s).capacity then .error .ub else .ok c := by
  simp only [Memory.read] at hr ⊢
  by_cases hnum : (m.buffer j t).number = num
  swap
  · rw [if_neg hnum] at hr; simp at hr
  rw [if_pos hnum] at hr
  by_cases h : j = i ∧ t = s
  · obtain ⟨rfl, rfl⟩ := h
    rw [hn, hl]
    by_cases hf : (m.list j t).length = (m.buffer j t).capacity
    · simp [hf, ← hnum]
    · simp only [hf, if_false, Nat.add_zero, hnum, if_true, and_self, and_false]
      cases hp : (m.list j t)[pos]? with
      | none => rw [hp] at hr; simp at hr
      | some c' =>
        rw [hp] at hr
        rw [List.getElem?_append_left (List.getElem?_eq_some_iff.mp hp).1, hp]
        exact hr
  · rw [hb j t h, hl, if_neg h, if_pos hnum, if_neg (fun hh => h hh.1)]
    exact hr

omit [Dbl D] in
theorem sgmtLoop_ref (grow : ℕ → ℕ) {i pos num : ℕ} {s : Slot} {c : Constraint D} (n : ℕ) :
    ∀ (index : ℕ) (m : Memory D), index + n ≤ m.builder.path.waypoints.length →
    m.read (.element i s pos num) = .ok c →
    ((m.list i s).length = (m.buffer i s).capacity →
      (s = .waypoint ∧ index ≤ i ∧ i < index + n ∨ s = .segment ∧ index ≤ i ∧ i + 1 < index + n) →
      (m.sgmtLoop grow (.element i s pos num) n index).2 = some .ub) ∧
    (¬((m.list i s).length = (m.buffer i s).capacity ∧
      (s = .waypoint ∧ index ≤ i ∧ i < index + n ∨ s = .segment ∧ index ≤ i ∧ i + 1 < index + n)) →
      m.sgmtLoop grow (.element i s pos num) n index = m.sgmtLoop grow (.temporary c) n index) := by
  induction n with
  | zero =>
    intro index m hlen hr
    refine ⟨fun _ h => ?_, fun _ => rfl⟩
    omega
  | succ n ih =>
    intro index m hlen hr
    obtain ⟨m1, e1, f1, l1, ls1, bs1, n1⟩ := pushBack_eq grow (s := .waypoint) (i := index) (by omega) hr
    have r1 := read_push hr ls1 bs1 n1
    simp only [Memory.sgmtLoop, e1, f1, MemOut.andThen]
    by_cases hA : (i = index ∧ s = .waypoint) ∧ (m.list index .waypoint).length = (m.buffer index .waypoint).capacity
    · rw [if_pos hA] at r1
      obtain ⟨⟨rfl, rfl⟩, hf⟩ := hA
      constructor
      · intro _ _
        simp [Memory.pushBack, r1, l1, show i < m.builder.path.waypoints.length by omega]
      · intro h
        exact absurd ⟨hf, .inl ⟨rfl, le_rfl, by omega⟩⟩ h
    rw [if_neg hA] at r1
    obtain ⟨m2, e2, f2, l2, ls2, bs2, n2⟩ := pushBack_eq grow (s := .segment) (i := index) (by omega) r1
    have r2 := read_push r1 ls2 bs2 n2
    simp only [e2, f2]
    have hl1 : m1.list index .segment = m.list index .segment := by rw [ls1]; simp
    have hb1 : m1.buffer index .segment = m.buffer index .segment := bs1 _ _ (by simp)
    by_cases hB : (i = index ∧ s = .segment) ∧ (m1.list index .segment).length = (m1.buffer index .segment).capacity
    · rw [if_pos hB] at r2
      obtain ⟨⟨rfl, rfl⟩, hf⟩ := hB
      rw [hl1, hb1] at hf
      cases n with
      | zero =>
        constructor
        · intro _ h; simp at h
        · intro _; rfl
      | succ n =>
        constructor
        · intro _ _
          simp [Memory.sgmtLoop, Memory.pushBack, r2, l2, l1, MemOut.andThen,
            show i + 1 < m.builder.path.waypoints.length by omega]
        · intro h
          exact absurd ⟨hf, .inr ⟨rfl, le_rfl, by omega⟩⟩ h
    rw [if_neg hB] at r2
    obtain ⟨ih1, ih2⟩ := ih (index + 1) m2 (by omega) r2
    -- the vector pointed to is as full as before, unless it was not full
    by_cases hi : i = index
    · subst hi
      have hnot : ¬(m.list i s).length = (m.buffer i s).capacity := by
        intro hf
        cases s with
        | waypoint => exact hA ⟨⟨rfl, rfl⟩, hf⟩
        | segment => exact hB ⟨⟨rfl, rfl⟩, by rw [hl1, hb1]; exact hf⟩
      refine ⟨fun h => absurd h hnot, fun _ => ih2 ?_⟩
      rintro ⟨-, h | h⟩ <;> omega
    · have hl2 : m2.list i s = m.list i s := by rw [ls2, ls1]; simp [hi]
      have hb2 : m2.buffer i s = m.buffer i s := by rw [bs2 _ _ (by simp [hi]), bs1 _ _ (by simp [hi])]
      rw [hl2, hb2] at ih1 ih2
      refine ⟨fun hf h => ih1 hf ?_, fun h => ih2 fun h' => h ⟨h'.1, ?_⟩⟩
      · rcases h with ⟨h, h', h''⟩ | ⟨h, h', h''⟩
        · left; exact ⟨h, by omega, by omega⟩
        · right; exact ⟨h, by omega, by omega⟩
      · rcases h'.2 with ⟨h, h', h''⟩ | ⟨h, h', h''⟩
        · left; exact ⟨h, by omega, by omega⟩
        · right; exact ⟨h, by omega, by omega⟩

/-! ### Temporaries: the model of the other chapters -/

omit [Dbl D] in
theorem pushBack_builder (grow : ℕ → ℕ) (m : Memory D) (i : ℕ) (s : Slot) (c : Constraint D) :
    ((m.pushBack grow i s (.temporary c)).1.builder, (m.pushBack grow i s (.temporary c)).2) =
      m.builder.modifyWpt i (match s with | .waypoint => pushWpt c | .segment => pushSgmt c) := by
  simp only [Memory.pushBack, modifyWpt, Memory.read]
  split_ifs <;> rfl

omit [Dbl D] in
theorem sgmtLoop_builder (grow : ℕ → ℕ) (c : Constraint D) (n : ℕ) : ∀ (i : ℕ) (m : Memory D),
    ((m.sgmtLoop grow (.temporary c) n i).1.builder, (m.sgmtLoop grow (.temporary c) n i).2) =
      sgmtLoop c n i m.builder := by
  induction n with
  | zero => intro i m; rfl
  | succ n ih =>
    intro i m
    have h1 := pushBack_builder grow m i .waypoint c
    simp only [Memory.sgmtLoop, sgmtLoop, ← h1]
    obtain ⟨m1, f1⟩ := m.pushBack grow i .waypoint (.temporary c)
    cases f1 with
    | some e => rfl
    | none =>
      have h2 := pushBack_builder grow m1 i .segment c
      simp only [MemOut.andThen, Builder.andThen, ← h2]
      obtain ⟨m2, f2⟩ := m1.pushBack grow i .segment (.temporary c)
      cases f2 with
      | some e => rfl
      | none => exact ih (i + 1) m2

/-- C100, temporaries: the calls do what they do without buffers. -/
theorem C100_temporary (grow : ℕ → ℕ) (asserts : Bool) (m : Memory D) (c : Constraint D) (i j : ℕ) :
    (let o := RefCall.exec grow asserts m (.wpt i (.temporary c));
      (o.1.builder, o.2) = Op.exec asserts (.wptConstraint i c) m.builder) ∧
    (let o := RefCall.exec grow asserts m (.sgmt i j (.temporary c));
      (o.1.builder, o.2) = Op.exec asserts (.sgmtConstraint i j c) m.builder) := by
  constructor
  · exact pushBack_builder grow (m.newWpts i) i .waypoint c
  · simp only [RefCall.exec, Memory.sgmtConstraint, Op.exec, sgmtConstraint]
    split_ifs with h
    · rfl
    · have h1 := pushBack_builder grow (m.newWpts j) i .waypoint c
      simp only at h1
      rw [show (m.newWpts j).builder = m.builder.newWpts j from rfl] at h1
      rw [← h1]
      obtain ⟨m1, f1⟩ := (m.newWpts j).pushBack grow i .waypoint (.temporary c)
      cases f1 with
      | some e => rfl
      | none => exact sgmtLoop_builder grow c _ _ m1

/-! ### References into the path -/

theorem newWpts_list {m : Memory D} (hm : Reachable m.builder) {k : ℕ} (hk : k < 2 ^ 63) (i : ℕ) (s : Slot) :
    (m.newWpts k).list i s = m.list i s := by
  simp only [Memory.list, Memory.newWpts, newWpts_eq (wf_reachable hm).len hk, Builder.grow]
  rw [List.getElem?_append]
  split_ifs with h
  · rfl
  · rw [List.getElem?_eq_none (l := m.builder.path.waypoints) (by omega), List.getElem?_replicate]
    split_ifs
    · cases s <;> rfl
    · rfl

theorem newWpts_read {m : Memory D} (hm : Reachable m.builder) {k : ℕ} (hk : k < 2 ^ 63) (a : Arg D) :
    (m.newWpts k).read a = m.read a := by
  cases a with
  | temporary c => rfl
  | element i s pos num =>
    simp only [Memory.read, newWpts_list hm hk]
    rfl

/-- C100, waypoints: `WptConstraint` can be called with a constraint of the path itself. -/
theorem C100_wpt (grow : ℕ → ℕ) (asserts : Bool) (m : Memory D) (hm : Reachable m.builder) (arg : Arg D)
    (c : Constraint D) (harg : m.read arg = .ok c) (i : ℕ) (hi : i < 2 ^ 63) :
    RefCall.exec grow asserts m (.wpt i arg) = RefCall.exec grow asserts m (.wpt i (.temporary c)) ∧
    ∃ m', RefCall.exec grow asserts m (.wpt i arg) = (m', none) ∧
      table m'.builder = (table m.builder).after (.wptConstraint i c) := by
  have hlen := newWpts_len (wf_reachable hm) hi
  obtain ⟨m', h1, h2, -⟩ := pushBack_eq grow (m := m.newWpts i) (s := .waypoint) (i := i) (a := arg) (c := c)
    (by simp only [Memory.newWpts]; omega) (by rw [newWpts_read hm hi, harg])
  refine ⟨by simp only [RefCall.exec, Memory.wptConstraint, h1, h2], m', h1, ?_⟩
  obtain ⟨b', e, t⟩ := C11_wpt_constraint m.builder hm i hi c
  have := (C100_temporary grow asserts m c i i).1
  simp only [RefCall.exec, Memory.wptConstraint, h2, Op.exec, e, Prod.mk.injEq, and_true] at this
  rw [this, t]
  rfl

/-- C100, segments: `SgmtConstraint` with a constraint of the path itself is undefined exactly if the reference
dangles before the call is over; otherwise it does what it does with a copy. -/
theorem C100_sgmt_partial (grow : ℕ → ℕ) (asserts : Bool) (m : Memory D) (hm : Reachable m.builder)
    (k : ℕ) (s : Slot) (pos number : ℕ) (c : Constraint D) (harg : m.read (.element k s pos number) = .ok c)
    (i j : ℕ) (hij : i < j) (hj : j < 2 ^ 63) :
    (Dangles m i j k s → (RefCall.exec grow asserts m (.sgmt i j (.element k s pos number))).2 = some .ub) ∧
    (¬Dangles m i j k s →
      RefCall.exec grow asserts m (.sgmt i j (.element k s pos number)) =
        RefCall.exec grow asserts m (.sgmt i j (.temporary c)) ∧
      ∃ m', RefCall.exec grow asserts m (.sgmt i j (.element k s pos number)) = (m', none) ∧
        table m'.builder = (table m.builder).after (.sgmtConstraint i j c)) := by
  have hlen := newWpts_len (wf_reachable hm) hj
  have hr : (m.newWpts j).read (.element k s pos number) = .ok c := by rw [newWpts_read hm hj, harg]
  have hL := newWpts_list hm hj
  have hB : ∀ i s, (m.newWpts j).buffer i s = m.buffer i s := fun _ _ => rfl
  have hlen' : j < (m.newWpts j).builder.path.waypoints.length := by simp only [Memory.newWpts]; omega
  obtain ⟨m1, e1, f1, l1, ls1, bs1, n1⟩ := pushBack_eq grow (s := .waypoint) (i := i) (by omega) hr
  have r1 := read_push hr ls1 bs1 n1
  have hassert : (asserts && !decide (i < j)) = false := by simp [hij]
  rw [hL, hB] at r1
  have value : ∀ m', RefCall.exec grow asserts m (.sgmt i j (.temporary c)) = (m', none) →
      table m'.builder = (table m.builder).after (.sgmtConstraint i j c) := by
    intro m' h
    obtain ⟨b', e, t⟩ := C11_sgmt_constraint asserts m.builder hm i j hij hj c
    have := (C100_temporary grow asserts m c i j).2
    simp only [h, Op.exec, e, Prod.mk.injEq, and_true] at this
    rw [this, t]
    rfl
  have returns : ∃ m', RefCall.exec grow asserts m (.sgmt i j (.temporary c)) = (m', none) := by
    obtain ⟨b', e, t⟩ := C11_sgmt_constraint asserts m.builder hm i j hij hj c
    have := (C100_temporary grow asserts m c i j).2
    simp only [Op.exec, e, Prod.mk.injEq] at this
    exact ⟨_, Prod.ext rfl this.2⟩
  have same : (RefCall.exec grow asserts m (.sgmt i j (.element k s pos number)) =
        RefCall.exec grow asserts m (.sgmt i j (.temporary c))) →
      RefCall.exec grow asserts m (.sgmt i j (.element k s pos number)) =
        RefCall.exec grow asserts m (.sgmt i j (.temporary c)) ∧
      ∃ m', RefCall.exec grow asserts m (.sgmt i j (.element k s pos number)) = (m', none) ∧
        table m'.builder = (table m.builder).after (.sgmtConstraint i j c) := by
    intro h
    obtain ⟨m', hm'⟩ := returns
    exact ⟨h, m', by rw [h, hm'], value m' hm'⟩
  by_cases hA : (k = i ∧ s = .waypoint) ∧ (m.list i .waypoint).length = (m.buffer i .waypoint).capacity
  · rw [if_pos hA] at r1
    obtain ⟨⟨rfl, rfl⟩, hf⟩ := hA
    refine ⟨fun _ => ?_, fun h => absurd ⟨hf, .inl ⟨rfl, le_rfl, hij.le⟩⟩ h⟩
    obtain ⟨n, hn⟩ : ∃ n, j - k = n + 1 := ⟨j - k - 1, by omega⟩
    have hp : m1.pushBack grow (k + 1) .waypoint (.element k .waypoint pos number) = (m1, some .ub) := by
      simp [Memory.pushBack, r1, l1, show k + 1 < (m.newWpts j).builder.path.waypoints.length by omega]
    simp only [RefCall.exec, Memory.sgmtConstraint, hassert, e1, MemOut.andThen, hn, Memory.sgmtLoop, hp,
      Bool.false_eq_true, if_false]
  rw [if_neg hA] at r1
  obtain ⟨g1, g2⟩ := sgmtLoop_ref grow (j - i) (i + 1) m1 (by omega) r1
  have exec1 : RefCall.exec grow asserts m (.sgmt i j (.element k s pos number)) =
      m1.sgmtLoop grow (.element k s pos number) (j - i) (i + 1) := by
    simp [RefCall.exec, Memory.sgmtConstraint, hassert, e1, MemOut.andThen]
  have exec2 : RefCall.exec grow asserts m (.sgmt i j (.temporary c)) =
      m1.sgmtLoop grow (.temporary c) (j - i) (i + 1) := by
    simp [RefCall.exec, Memory.sgmtConstraint, hassert, f1, MemOut.andThen]
  by_cases hk : k = i ∧ s = .waypoint
  · obtain ⟨rfl, rfl⟩ := hk
    have hnot : ¬(m.list k .waypoint).length = (m.buffer k .waypoint).capacity := fun h => hA ⟨⟨rfl, rfl⟩, h⟩
    refine ⟨fun h => absurd h.1 hnot, fun _ => same ?_⟩
    rw [exec1, exec2]
    exact g2 (by rintro ⟨-, h | h⟩ <;> omega)
  · have hl : m1.list k s = m.list k s := by rw [ls1, if_neg hk, hL]
    have hb : m1.buffer k s = m.buffer k s := by rw [bs1 _ _ hk, hB]
    rw [hl, hb] at g1 g2
    constructor
    · rintro ⟨hf, h⟩
      rw [exec1]
      refine g1 hf ?_
      rcases h with ⟨h, h1, h2⟩ | ⟨h, h1, h2⟩
      · left
        refine ⟨h, ?_, by omega⟩
        have : k ≠ i := fun e => hk ⟨e, h⟩
        omega
      · right; exact ⟨h, by omega, by omega⟩
    · intro h
      refine same ?_
      rw [exec1, exec2]
      refine g2 fun h' => h ⟨h'.1, ?_⟩
      rcases h'.2 with ⟨h, h1, h2⟩ | ⟨h, h1, h2⟩
      · left; exact ⟨h, by omega, by omega⟩
      · right; exact ⟨h, by omega, by omega⟩

/-! ### Histories -/

/-- Calls with temporaries, and what they are without buffers. -/
def plainCall : RefCall D → Option (Op D)
  | .wpt i (.temporary c) => some (.wptConstraint i c)
  | .sgmt i j (.temporary c) => some (.sgmtConstraint i j c)
  | _ => none

theorem runRefs_builder (grow : ℕ → ℕ) (asserts : Bool) (ops : List (Op D)) :
    ∀ (cs : List (RefCall D)) (m : Memory D), cs.map plainCall = ops.map some →
      (runRefs grow asserts cs m).builder = run asserts ops m.builder := by
  induction ops with
  | nil => intro cs m h; obtain rfl : cs = [] := by simpa using h
           rfl
  | cons op ops ih =>
    intro cs m h
    cases cs with
    | nil => simp at h
    | cons call cs =>
      simp only [List.map_cons, List.cons.injEq] at h
      have := ih cs (call.exec grow asserts m).1 h.2
      simp only [runRefs, run, List.foldl_cons] at this ⊢
      rw [this]
      congr 1
      rcases call with ⟨i, c | _⟩ | ⟨i, j, c | _⟩ <;> simp only [plainCall, Option.some.injEq, reduceCtorEq, false_and] at h
      · rw [← h.1]; exact congrArg Prod.fst (C100_temporary grow asserts m c i 0).1
      · rw [← h.1]; exact congrArg Prod.fst (C100_temporary grow asserts m c i j).2

/-- `n` calls `WptConstraint(0, c)`. -/
def repeated (grow : ℕ → ℕ) (asserts : Bool) (c : Constraint D) (n : ℕ) : Memory D :=
  runRefs grow asserts (List.replicate n (.wpt 0 (.temporary c))) Memory.new

theorem repeated_reachable (grow : ℕ → ℕ) (asserts : Bool) (c : Constraint D) (n : ℕ) :
    Reachable (repeated grow asserts c n).builder :=
  ⟨asserts, List.replicate n (.wptConstraint 0 c),
    runRefs_builder grow asserts _ _ _ (by simp [plainCall])⟩

theorem exec_wpt (grow : ℕ → ℕ) (asserts : Bool) (m : Memory D) (i : ℕ) (a : Arg D) :
    RefCall.exec grow asserts m (.wpt i a) = (m.newWpts i).pushBack grow i .waypoint a := rfl

theorem repeated_succ (grow : ℕ → ℕ) (asserts : Bool) (c : Constraint D) (n : ℕ) :
    repeated grow asserts c (n + 1) =
      (((repeated grow asserts c n).newWpts 0).pushBack grow 0 .waypoint (.temporary c)).1 := by
  rw [← exec_wpt grow asserts]
  unfold repeated runRefs
  rw [List.replicate_succ', List.foldl_append, List.foldl_cons, List.foldl_nil]

omit [Dbl D] in
theorem pushBack_buffer (grow : ℕ → ℕ) {m : Memory D} {i : ℕ} {s : Slot} {c : Constraint D}
    (hi : i < m.builder.path.waypoints.length) :
    (m.pushBack grow i s (.temporary c)).1.buffer i s =
      if (m.list i s).length = (m.buffer i s).capacity then ⟨grow (m.buffer i s).capacity, (m.buffer i s).number + 1⟩
      else m.buffer i s := by
  simp [Memory.pushBack, hi, Memory.read]

theorem newWpts_mem_len {m : Memory D} (hm : Reachable m.builder) {k : ℕ} (hk : k < 2 ^ 63) :
    k < (m.newWpts k).builder.path.waypoints.length :=
  newWpts_len (wf_reachable hm) hk

theorem repeated_spec (grow : ℕ → ℕ) (asserts : Bool) (c : Constraint D) (n : ℕ) (hn : n < grow 0) :
    (repeated grow asserts c (n + 1)).list 0 .waypoint = List.replicate (n + 1) c ∧
    (repeated grow asserts c (n + 1)).buffer 0 .waypoint = ⟨grow 0, 1⟩ := by
  have step : ∀ n, ((repeated grow asserts c (n + 1)).list 0 .waypoint =
        (repeated grow asserts c n).list 0 .waypoint ++ [c]) ∧
      (repeated grow asserts c (n + 1)).buffer 0 .waypoint =
        if ((repeated grow asserts c n).list 0 .waypoint).length =
          ((repeated grow asserts c n).buffer 0 .waypoint).capacity
        then ⟨grow ((repeated grow asserts c n).buffer 0 .waypoint).capacity,
          ((repeated grow asserts c n).buffer 0 .waypoint).number + 1⟩
        else (repeated grow asserts c n).buffer 0 .waypoint := by
    intro n
    have hm := repeated_reachable grow asserts c n
    have hlen := newWpts_mem_len hm (show 0 < 2 ^ 63 by norm_num)
    obtain ⟨m', h1, -, -, hl, -⟩ := pushBack_eq grow (m := (repeated grow asserts c n).newWpts 0) (s := .waypoint)
      (i := 0) (a := .temporary c) (c := c) hlen rfl
    constructor
    · rw [repeated_succ, h1, hl, if_pos ⟨rfl, rfl⟩, newWpts_list hm (by norm_num)]
    · rw [repeated_succ, pushBack_buffer grow hlen, newWpts_list hm (by norm_num)]
      simp only [Memory.newWpts]
      split_ifs with h <;> simp_all
  induction n with
  | zero =>
    obtain ⟨h1, h2⟩ := step 0
    have e : (repeated grow asserts c 0 : Memory D) = Memory.new := rfl
    rw [h1, h2, e]
    exact ⟨rfl, rfl⟩
  | succ n ih =>
    obtain ⟨h1, h2⟩ := step (n + 1)
    obtain ⟨i1, i2⟩ := ih (by omega)
    rw [h1, h2, i1, i2, List.length_replicate, if_neg (by simp only; omega), List.replicate_succ' (n := n + 1)]
    exact ⟨rfl, rfl⟩

/-- C100, refuted: however the vectors grow, and whatever the constraint, after some calls of `WptConstraint(0, c)` the
call `SgmtConstraint(0, 1, c')` with the last constraint recorded is undefined, although the constraint can be read
before the call. -/
theorem C100_refuted (grow : ℕ → ℕ) (hgrow : ∀ n, n < grow n) (asserts : Bool) (c : Constraint D) :
    ∃ (n : ℕ) (arg : Arg D),
      let m := runRefs grow asserts (List.replicate n (.wpt 0 (.temporary c))) Memory.new
      m.read arg = .ok c ∧ (RefCall.exec grow asserts m (.sgmt 0 1 arg)).2 = some .ub := by
  obtain ⟨k, hk⟩ : ∃ k, grow 0 = k + 1 := ⟨grow 0 - 1, by have := hgrow 0; omega⟩
  obtain ⟨h1, h2⟩ := repeated_spec grow asserts c k (by omega)
  refine ⟨k + 1, .element 0 .waypoint k 1, ?_⟩
  have hr : (repeated grow asserts c (k + 1)).read (.element 0 .waypoint k 1) = .ok c := by
    simp [Memory.read, h1, h2]
  refine ⟨hr, ?_⟩
  refine (C100_sgmt_partial grow asserts _ (repeated_reachable grow asserts c (k + 1)) _ _ _ _ c hr 0 1 (by norm_num)
    (by norm_num)).1 ⟨?_, .inl ⟨rfl, le_rfl, by norm_num⟩⟩
  rw [h1, h2, List.length_replicate, hk]

/-- With a vector that doubles, one constraint is enough; the constraint of a waypoint outside the segment, or a copy,
is safe. -/
example (c : Constraint ℝ) :
    let grow := fun n => max 1 (2 * n)
    let m := runRefs grow true [.wpt 0 (.temporary c)] Memory.new
    m.read (.element 0 .waypoint 0 1) = .ok c ∧ Dangles m 0 1 0 .waypoint ∧ ¬Dangles m 1 4 0 .waypoint ∧
    (RefCall.exec grow true m (.sgmt 0 1 (.element 0 .waypoint 0 1))).2 = some .ub ∧
    (RefCall.exec grow true m (.sgmt 1 4 (.element 0 .waypoint 0 1))).2 = none ∧
    (RefCall.exec grow true m (.wpt 0 (.element 0 .waypoint 0 1))).2 = none := by
  intro grow m
  obtain ⟨h1, h2⟩ := repeated_spec grow true c 0 (by simp [grow])
  have hm : m = repeated grow true c 1 := rfl
  have hR := repeated_reachable grow true c 1
  rw [← hm] at h1 h2 hR
  have hr : m.read (.element 0 .waypoint 0 1) = .ok c := by simp [Memory.read, h1, h2]
  have hd : Dangles m 0 1 0 .waypoint := ⟨by rw [h1, h2]; rfl, .inl ⟨rfl, le_rfl, by norm_num⟩⟩
  have hd' : ¬Dangles m 1 4 0 .waypoint := by simp [Dangles]
  refine ⟨hr, hd, hd', (C100_sgmt_partial grow true m hR _ _ _ _ c hr 0 1 (by norm_num) (by norm_num)).1 hd, ?_, ?_⟩
  · obtain ⟨-, m', h, -⟩ := (C100_sgmt_partial grow true m hR _ _ _ _ c hr 1 4 (by norm_num) (by norm_num)).2 hd'
    rw [h]
  · obtain ⟨-, m', h, -⟩ := C100_wpt grow true m hR _ c hr 0 (by norm_num)
    rw [h]

end Trajopt.Props
