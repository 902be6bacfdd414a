import Verif.Spec.Builder
import Verif.Lemmas.Base
import Mathlib.Data.Int.Notation

/-! Helper lemmas about the builder. -/

set_option autoImplicit false

namespace Trajopt

variable {D : Type} [Dbl D]

open Spec

namespace Builder

/-- `n` waypoints appended, `m` default counts appended. -/
def grow (n m : ℕ) (b : Builder D) : Builder D :=
  { b with
    path := { b.path with waypoints := b.path.waypoints ++ List.replicate n {} }
    initialGuessPoints := b.initialGuessPoints ++ List.replicate n [originPose]
    controlIntervalCounts := b.controlIntervalCounts ++ List.replicate m 40 }

theorem newWptsLoop_eq (n : ℕ) (i : ℤ) (hi : 0 ≤ i) (b : Builder D) :
    newWptsLoop n i b = grow n (n - if i = 0 then 1 else 0) b := by
  induction n generalizing i b with
  | zero => simp [newWptsLoop, grow]
  | succ n ih =>
    rw [newWptsLoop, ih _ (by omega)]
    rw [if_neg (by omega : ¬ i + 1 = 0)]
    by_cases h : i = 0
    · simp [grow, h, List.replicate_succ, originPose]
    · simp [grow, h, List.replicate_succ, originPose]

theorem newWpts_eq {b : Builder D} (hb : b.path.waypoints.length ≤ 2 ^ 63) {k : ℕ}
    (hk : k < 2 ^ 63) :
    b.newWpts k = grow (k + 1 - b.path.waypoints.length)
      (max b.path.waypoints.length (k + 1) - max b.path.waypoints.length 1) b := by
  generalize hL : b.path.waypoints.length = L at hb
  have ht : toInt64 k = (k : ℤ) := by unfold toInt64; split <;> omega
  have hg : toInt64 (wsub L 1) = (L : ℤ) - 1 := by
    unfold toInt64 wsub; split <;> omega
  simp only [newWpts, hL, ht, hg]
  split
  next h =>
    rw [newWptsLoop_eq _ _ (by omega),
      show ((k : ℤ) - ((L : ℤ) - 1)).toNat = k + 1 - L by omega,
      show (k + 1 - L - if (L : ℤ) - 1 + 1 = 0 then 1 else 0) = max L (k + 1) - max L 1 by
        split <;> omega]
  next h =>
    rw [show k + 1 - L = 0 by omega, show max L (k + 1) - max L 1 = 0 by omega]
    simp [grow]

theorem newWpts_big {b : Builder D} (hb : b.path.waypoints.length ≤ 2 ^ 63) {k : ℕ}
    (hk : 2 ^ 63 ≤ k % 2 ^ 64) : b.newWpts k = b := by
  generalize hL : b.path.waypoints.length = L at hb
  have hg : toInt64 (wsub L 1) = (L : ℤ) - 1 := by
    unfold toInt64 wsub; split <;> omega
  have ht : toInt64 k < 0 := by unfold toInt64; split <;> omega
  simp only [newWpts, hL, hg]
  rw [if_neg (by omega)]

theorem newWpts_mod {b : Builder D} (k : ℕ) : b.newWpts k = b.newWpts (k % 2 ^ 64) := by
  simp [newWpts, toInt64]

/-- Whatever the index, `NewWpts` only grows the tables. -/
theorem newWpts_grow {b : Builder D} (hb : b.path.waypoints.length ≤ 2 ^ 63) (k : ℕ) :
    ∃ n m, b.newWpts k = grow n m b ∧ b.path.waypoints.length + n ≤ 2 ^ 63 ∧
      m = b.path.waypoints.length + n - max b.path.waypoints.length 1 := by
  by_cases hk : 2 ^ 63 ≤ k % 2 ^ 64
  · exact ⟨0, 0, by simp [newWpts_big hb hk, grow], by omega, by omega⟩
  · rw [newWpts_mod, newWpts_eq hb (by omega)]
    exact ⟨_, _, rfl, by omega, by omega⟩

/-- The builder with its waypoints replaced. -/
def withWpts (ws : List (Waypoint D)) (b : Builder D) : Builder D :=
  { b with path := { b.path with waypoints := ws } }

omit [Dbl D] in
theorem modifyWpt_eq (i : ℕ) (f : Waypoint D → Waypoint D) (b : Builder D) :
    b.modifyWpt i f = if i < b.path.waypoints.length then
      (b.withWpts (b.path.waypoints.mapIdx fun w x => if w = i then f x else x), none)
      else (b, some .outOfRange) := by
  unfold modifyWpt withWpts
  have : b.path.waypoints.modify i f =
      b.path.waypoints.mapIdx fun w x => if w = i then f x else x := by
    apply List.ext_getElem?
    intro k
    rw [List.getElem?_modify, List.getElem?_mapIdx]
    by_cases h : i = k
    · subst h; simp
    · have h' : ¬ k = i := fun e => h e.symm
      simp only [h, h', if_false]
      cases b.path.waypoints[k]? <;> rfl
  rw [this]

omit [Dbl D] in
theorem sgmtLoop_ok (c : Constraint D) (n start : ℕ) (b : Builder D)
    (h : start + n ≤ b.path.waypoints.length) :
    sgmtLoop c n start b = (b.withWpts (b.path.waypoints.mapIdx fun w x =>
      if start ≤ w ∧ w < start + n then pushSgmt c (pushWpt c x) else x), none) := by
  induction n generalizing start b with
  | zero =>
    have : (b.path.waypoints.mapIdx fun w x =>
        if start ≤ w ∧ w < start + 0 then pushSgmt c (pushWpt c x) else x) = b.path.waypoints := by
      apply List.ext_getElem?
      intro k
      rw [List.getElem?_mapIdx]
      simp only [show ¬ (start ≤ k ∧ k < start + 0) by omega, if_false]
      cases b.path.waypoints[k]? <;> rfl
    rw [this]
    rfl
  | succ n ih =>
    rw [sgmtLoop, modifyWpt_eq, if_pos (by omega)]
    simp only [andThen]
    rw [modifyWpt_eq, if_pos (by simp [withWpts]; omega)]
    simp only []
    rw [ih _ _ (by simp [withWpts]; omega)]
    simp only [withWpts, List.mapIdx_mapIdx]
    congr
    funext w x
    simp only [Function.comp]
    by_cases h1 : w = start
    · subst h1
      rw [if_neg (by omega), if_pos rfl, if_pos rfl, if_pos (by omega)]
    · rw [if_neg h1, if_neg h1]
      by_cases h2 : start ≤ w ∧ w < start + (n + 1)
      · rw [if_pos h2, if_pos (by omega)]
      · rw [if_neg h2, if_neg (by omega)]

/-- Invariant of every builder. -/
structure WF (b : Builder D) : Prop where
  len : b.path.waypoints.length ≤ 2 ^ 63
  guess : b.initialGuessPoints.length = b.path.waypoints.length
  ne : ∀ l ∈ b.initialGuessPoints, l ≠ []
  first : ∀ w, b.path.waypoints[0]? = some w → w.segmentConstraints = []

/-- Waypoint 0 has one guess. -/
def G0 (b : Builder D) : Prop := ∀ l, b.initialGuessPoints[0]? = some l → l.length = 1

/-- What any piece of a builder call (other than setting the counts) does. -/
structure Step (q : Prop) (b b' : Builder D) : Prop where
  wf : WF b'
  len : b.path.waypoints.length ≤ b'.path.waypoints.length
  counts : b'.controlIntervalCounts = b.controlIntervalCounts ++
    List.replicate (b'.path.waypoints.length - max b.path.waypoints.length 1) 40
  instant : ∀ w, (table b).instant w <+: (table b').instant w
  continuous : ∀ s, (table b).continuous s <+: (table b').continuous s
  g0 : q → G0 b → G0 b'

theorem Step.refl {q : Prop} {b : Builder D} (h : WF b) : Step q b b :=
  ⟨h, Nat.le_refl _, by simp [show b.path.waypoints.length - max b.path.waypoints.length 1 = 0 by omega],
    fun _ => List.prefix_rfl, fun _ => List.prefix_rfl, fun _ h => h⟩

theorem Step.trans {q : Prop} {b₁ b₂ b₃ : Builder D} (h : Step q b₁ b₂) (h' : Step q b₂ b₃) :
    Step q b₁ b₃ :=
  ⟨h'.wf, Nat.le_trans h.len h'.len, by
    rw [h'.counts, h.counts, List.append_assoc, List.replicate_append_replicate]
    have h1 := h.len
    have h2 := h'.len
    congr 2
    omega, fun w => (h.instant w).trans (h'.instant w),
    fun w => (h.continuous w).trans (h'.continuous w), fun hq hg => h'.g0 hq (h.g0 hq hg)⟩

omit [Dbl D] in
theorem getD_append_replicate {α : Type} (l : List α) (n : ℕ) (d : α) (w : ℕ) :
    (l ++ List.replicate n d).getD w d = l.getD w d := by
  simp only [List.getD_eq_getElem?_getD, List.getElem?_append, List.getElem?_replicate]
  split
  · rfl
  · rw [List.getElem?_eq_none (by omega)]
    split <;> rfl

theorem table_grow (n m : ℕ) (b : Builder D) :
    table (grow n m b) = { table b with
      waypoints := b.path.waypoints.length + n
      counts := b.controlIntervalCounts ++ List.replicate m 40 } := by
  simp only [table, grow, getD_append_replicate, List.length_append, List.length_replicate]

theorem step_grow {q : Prop} {b : Builder D} (hb : WF b) {n m : ℕ}
    (hn : b.path.waypoints.length + n ≤ 2 ^ 63)
    (hm : m = b.path.waypoints.length + n - max b.path.waypoints.length 1) :
    Step q b (grow n m b) := by
  refine ⟨⟨?_, ?_, ?_, ?_⟩, ?_, ?_, ?_, ?_, ?_⟩
  · simpa [grow] using hn
  · simpa [grow] using hb.guess
  · simp only [grow, List.mem_append, List.mem_replicate]
    rintro l (h | ⟨-, rfl⟩)
    · exact hb.ne l h
    · simp
  · intro w hw
    simp only [grow, List.getElem?_append, List.getElem?_replicate] at hw
    split at hw
    · exact hb.first w hw
    · split at hw
      · cases hw; rfl
      · simp at hw
  · simp [grow]
  · simp only [grow, List.length_append, List.length_replicate, hm]
  · intro w; rw [table_grow]; exact List.prefix_rfl
  · intro w; rw [table_grow]; exact List.prefix_rfl
  · intro _ hg l hl
    simp only [grow, List.getElem?_append, List.getElem?_replicate] at hl
    split at hl
    · exact hg l hl
    · split at hl
      · cases hl; rfl
      · simp at hl

theorem step_newWpts {q : Prop} {b : Builder D} (hb : WF b) (k : ℕ) : Step q b (b.newWpts k) := by
  obtain ⟨n, m, h, hn, hm⟩ := newWpts_grow hb.len k
  rw [h]
  exact step_grow hb hn hm

theorem table_newWpts {b : Builder D} (hb : WF b) {k : ℕ} (hk : k < 2 ^ 63) :
    table (b.newWpts k) = (table b).reach k := by
  rw [newWpts_eq hb.len hk, table_grow]
  simp only [table, PathTable.reach]
  rw [show b.path.waypoints.length + (k + 1 - b.path.waypoints.length) =
    max b.path.waypoints.length (k + 1) by omega]

theorem newWpts_len {b : Builder D} (hb : WF b) {k : ℕ} (hk : k < 2 ^ 63) :
    k < (b.newWpts k).path.waypoints.length := by
  have := congrArg PathTable.waypoints (table_newWpts hb hk)
  simp only [table, PathTable.reach] at this
  omega

/-- A change of waypoints that only appends constraints. -/
theorem step_withWpts {q : Prop} {b : Builder D} (hb : WF b) (f : ℕ → Waypoint D → Waypoint D)
    (hi : ∀ w x, x.waypointConstraints <+: (f w x).waypointConstraints)
    (hs : ∀ w x, x.segmentConstraints <+: (f w x).segmentConstraints)
    (h0 : ∀ x, (f 0 x).segmentConstraints = x.segmentConstraints) :
    Step q b (b.withWpts (b.path.waypoints.mapIdx f)) := by
  have key : ∀ w, ((b.path.waypoints.mapIdx f).getD w {}) = (b.path.waypoints.getD w {}) ∨
      ((b.path.waypoints.mapIdx f).getD w {}) = f w (b.path.waypoints.getD w {}) := by
    intro w
    simp only [List.getD_eq_getElem?_getD, List.getElem?_mapIdx]
    cases b.path.waypoints[w]?
    · exact .inl rfl
    · exact .inr rfl
  refine ⟨⟨?_, ?_, ?_, ?_⟩, ?_, ?_, ?_, ?_, ?_⟩
  · simpa [withWpts] using hb.len
  · simpa [withWpts] using hb.guess
  · exact hb.ne
  · intro w hw
    simp only [withWpts, List.getElem?_mapIdx, Option.map_eq_some_iff] at hw
    obtain ⟨x, hx, rfl⟩ := hw
    rw [h0, hb.first x hx]
  · simp [withWpts]
  · simp [withWpts, show b.path.waypoints.length - max b.path.waypoints.length 1 = 0 by omega]
  · intro w
    simp only [table, withWpts]
    rcases key w with h | h <;> rw [h]
    · exact List.prefix_rfl
    · exact hi _ _
  · intro w
    simp only [table, withWpts]
    rcases key (w + 1) with h | h <;> rw [h]
    · exact List.prefix_rfl
    · exact hs _ _
  · exact fun _ h => h

theorem step_pushWpt {q : Prop} {b : Builder D} (hb : WF b) (i : ℕ) (c : Constraint D) :
    Step q b (b.modifyWpt i (pushWpt c)).1 := by
  rw [modifyWpt_eq]
  split
  · apply step_withWpts hb
    · intro w x; split <;> simp [pushWpt]
    · intro w x; split <;> simp [pushWpt]
    · intro x; split <;> simp [pushWpt]
  · exact .refl hb

theorem step_pushSgmt {q : Prop} {b : Builder D} (hb : WF b) {i : ℕ} (hi : i ≠ 0)
    (c : Constraint D) : Step q b (b.modifyWpt i (pushSgmt c)).1 := by
  rw [modifyWpt_eq]
  split
  · apply step_withWpts hb
    · intro w x; split <;> simp [pushSgmt]
    · intro w x; split <;> simp [pushSgmt]
    · intro x; rw [if_neg (Ne.symm hi)]
  · exact .refl hb

theorem step_andThen {q : Prop} {b : Builder D} {o : Out D} {f : Builder D → Out D}
    (h : Step q b o.1) (hf : ∀ b', WF b' → Step q b' (f b').1) : Step q b (andThen o f).1 := by
  obtain ⟨b', e⟩ := o
  cases e with
  | none => exact h.trans (hf b' h.wf)
  | some e => exact h

theorem step_wptConstraint {q : Prop} {b : Builder D} (hb : WF b) (i : ℕ) (c : Constraint D) :
    Step q b (b.wptConstraint i c).1 :=
  (step_newWpts hb i).trans (step_pushWpt (step_newWpts (q := True) hb i).wf i c)

theorem step_sgmtLoop {q : Prop} (c : Constraint D) (n i : ℕ) (hi : i ≠ 0) {b : Builder D}
    (hb : WF b) : Step q b (sgmtLoop c n i b).1 := by
  induction n generalizing i b with
  | zero => exact .refl hb
  | succ n ih =>
    exact step_andThen (step_pushWpt hb i c) fun b' hb' =>
      step_andThen (step_pushSgmt hb' hi c) fun b'' hb'' => ih (i + 1) (by omega) hb''

theorem step_sgmtConstraint {q : Prop} {b : Builder D} (hb : WF b) (asserts : Bool) (i j : ℕ)
    (c : Constraint D) : Step q b (b.sgmtConstraint asserts i j c).1 := by
  unfold sgmtConstraint
  split
  · exact .refl hb
  · refine step_andThen ((step_newWpts hb j).trans
      (step_pushWpt (step_newWpts (q := True) hb j).wf i c)) fun b' hb' => ?_
    exact step_sgmtLoop c _ _ (by omega) hb'

theorem step_recordAll {q : Prop} {record : Constraint D → Builder D → Out D}
    (hr : ∀ c b, WF b → Step q b (record c b).1) (l : List (Res (Constraint D))) {b : Builder D}
    (hb : WF b) : Step q b (recordAll record l b).1 := by
  induction l generalizing b with
  | nil => exact .refl hb
  | cons c l ih =>
    cases c with
    | error e => exact .refl hb
    | ok c => exact step_andThen (hr c b hb) fun b' hb' => ih hb'

/-- A change of one guess list. -/
theorem step_guess {q : Prop} {b : Builder D} (hb : WF b) (i : ℕ) (l : List (Pose2 D))
    (hl : l ≠ []) (hq : q → i = 0 → G0 b → i < b.initialGuessPoints.length → l.length = 1) :
    Step q b { b with initialGuessPoints := b.initialGuessPoints.set i l } := by
  refine ⟨⟨hb.len, ?_, ?_, hb.first⟩, Nat.le_refl _, ?_, fun _ => List.prefix_rfl,
    fun _ => List.prefix_rfl, ?_⟩
  · simpa using hb.guess
  · intro l' hl'
    rcases List.mem_or_eq_of_mem_set hl' with h | h
    · exact hb.ne _ h
    · exact h ▸ hl
  · simp [show b.path.waypoints.length - max b.path.waypoints.length 1 = 0 by omega]
  · intro hq' hg l' hl'
    dsimp only at hl'
    rw [List.getElem?_set] at hl'
    split at hl'
    next h =>
      split at hl'
      next h2 => cases hl'; exact hq hq' h hg h2
      next => simp at hl'
    next => exact hg l' hl'

theorem step_wptInitialGuessPoint {q : Prop} {b : Builder D} (hb : WF b) (i : ℕ) (p : Pose2 D) :
    Step q b (b.wptInitialGuessPoint i p).1 := by
  have h1 := step_newWpts (q := q) hb i
  unfold wptInitialGuessPoint
  dsimp only
  split
  next => exact h1
  next => exact h1
  next p' ps h =>
    refine h1.trans (step_guess h1.wf i _ (by simp) ?_)
    rintro - rfl hg -
    have := hg _ h
    simpa using this

theorem step_sgmtInitialGuessPoints {q : Prop} {b : Builder D} (hb : WF b) (i : ℕ)
    (ps : List (Pose2 D)) (hq : q → wadd i 1 ≠ 0) :
    Step q b (b.sgmtInitialGuessPoints i ps).1 := by
  have h1 := step_newWpts (q := q) hb (wadd i 1)
  unfold sgmtInitialGuessPoints
  dsimp only
  split
  next => exact h1
  next l h =>
    refine h1.trans (step_guess h1.wf _ _ ?_ fun hq' h0 => absurd h0 (hq hq'))
    have := h1.wf.ne l (List.mem_of_getElem? h)
    simp [this]

/-- Every call other than `ControlIntervalCounts` is a step. -/
theorem step_exec {q : Prop} {b : Builder D} (hb : WF b) (asserts : Bool) (op : Op D)
    (hc : ∀ cs, op ≠ .controlIntervalCounts cs)
    (hq : q → ∀ i ps, op = .sgmtInitialGuessPoints i ps → wadd i 1 ≠ 0) :
    Step q b (op.exec asserts b).1 := by
  cases op with
  | setDrivetrain d => exact ⟨⟨hb.1, hb.2, hb.3, hb.4⟩, Nat.le_refl _, (Step.refl (q := q) hb).counts,
      (Step.refl (q := q) hb).instant, (Step.refl (q := q) hb).continuous, fun _ h => h⟩
  | poseWpt i x y h =>
    exact step_andThen (step_wptConstraint hb i _) fun b' hb' => step_wptInitialGuessPoint hb' i _
  | translationWpt i x y h =>
    exact step_andThen (step_wptConstraint hb i _) fun b' hb' => step_wptInitialGuessPoint hb' i _
  | wptInitialGuessPoint i p => exact step_wptInitialGuessPoint hb i p
  | sgmtInitialGuessPoints i ps => exact step_sgmtInitialGuessPoints hb i ps fun hq' => hq hq' i ps rfl
  | addBumpers o => exact ⟨⟨hb.1, hb.2, hb.3, hb.4⟩, Nat.le_refl _, (Step.refl (q := q) hb).counts,
      (Step.refl (q := q) hb).instant, (Step.refl (q := q) hb).continuous, fun _ h => h⟩
  | wptObstacle i o => exact step_recordAll (fun c b hb => step_wptConstraint hb i c) _ hb
  | sgmtObstacle i j o =>
    exact step_recordAll (fun c b hb => step_sgmtConstraint hb asserts i j c) _ hb
  | wptConstraint i c => exact step_wptConstraint hb i c
  | sgmtConstraint i j c => exact step_sgmtConstraint hb asserts i j c
  | controlIntervalCounts cs => exact absurd rfl (hc cs)
  | addIntermediateCallback k => exact ⟨⟨hb.1, hb.2, hb.3, hb.4⟩, Nat.le_refl _,
      (Step.refl (q := q) hb).counts, (Step.refl (q := q) hb).instant,
      (Step.refl (q := q) hb).continuous, fun _ h => h⟩

omit [Dbl D] in
theorem wf_new : WF (Builder.new : Builder D) :=
  ⟨by simp [Builder.new], rfl, by simp [Builder.new], by simp [Builder.new]⟩

theorem wf_exec {b : Builder D} (hb : WF b) (asserts : Bool) (op : Op D) :
    WF (op.exec asserts b).1 := by
  by_cases h : ∃ cs, op = .controlIntervalCounts cs
  · obtain ⟨cs, rfl⟩ := h
    exact ⟨hb.1, hb.2, hb.3, hb.4⟩
  · exact (step_exec (q := False) hb asserts op (fun cs hc => h ⟨cs, hc⟩) (by simp)).wf

theorem wf_run {b : Builder D} (hb : WF b) (asserts : Bool) (ops : List (Op D)) :
    WF (run asserts ops b) := by
  induction ops generalizing b with
  | nil => exact hb
  | cons op ops ih => exact ih (wf_exec hb asserts op)

theorem step_run {q : Prop} {b : Builder D} (hb : WF b) (asserts : Bool) (ops : List (Op D))
    (hc : ∀ op ∈ ops, ∀ cs, op ≠ .controlIntervalCounts cs)
    (hq : q → ∀ op ∈ ops, ∀ i ps, op = .sgmtInitialGuessPoints i ps → wadd i 1 ≠ 0) :
    Step q b (run asserts ops b) := by
  induction ops generalizing b with
  | nil => exact .refl hb
  | cons op ops ih =>
    have h := step_exec (q := q) hb asserts op (hc op (by simp)) fun hq' => hq hq' op (by simp)
    exact h.trans (ih h.wf (fun op h => hc op (by simp [h]))
      fun hq' op h => hq hq' op (by simp [h]))

theorem wf_reachable {b : Builder D} (h : Reachable b) : WF b := by
  obtain ⟨asserts, ops, rfl⟩ := h
  exact wf_run wf_new asserts ops

theorem table_pushWpt {b : Builder D} {i : ℕ} (hi : i < b.path.waypoints.length)
    (c : Constraint D) :
    ∃ b', b.modifyWpt i (pushWpt c) = (b', none) ∧ table b' = (table b).requireAt i c := by
  refine ⟨_, by rw [modifyWpt_eq, if_pos hi], ?_⟩
  simp only [table, PathTable.requireAt, withWpts, List.length_mapIdx, List.getD_eq_getElem?_getD,
    List.getElem?_mapIdx, PathTable.mk.injEq, true_and, and_true]
  constructor
  · funext w
    by_cases h : w = i
    · subst h; rw [List.getElem?_eq_getElem hi]; simp [pushWpt]
    · simp only [h, if_false]
      cases b.path.waypoints[w]? <;> rfl
  · funext s
    cases h : b.path.waypoints[s + 1]? with
    | none => rfl
    | some x => simp only [Option.map_some, Option.getD_some]; split <;> rfl

/-- Effect on the table of recording `c` at waypoint `i` and both ways after it. -/
theorem table_along {b : Builder D} {i j : ℕ} (c : Constraint D) (hij : i ≤ j)
    (hj : j < b.path.waypoints.length) :
    table ((b.withWpts (b.path.waypoints.mapIdx fun w x =>
      if w = i then pushWpt c x else x)).withWpts ((b.path.waypoints.mapIdx fun w x =>
      if w = i then pushWpt c x else x).mapIdx fun w x =>
      if i + 1 ≤ w ∧ w < j + 1 then pushSgmt c (pushWpt c x) else x)) =
    (table b).requireAlong i j c := by
  simp only [table, PathTable.requireAlong, withWpts, List.length_mapIdx,
    List.getD_eq_getElem?_getD, List.getElem?_mapIdx, PathTable.mk.injEq, true_and, and_true]
  constructor
  · funext w
    cases h : b.path.waypoints[w]? with
    | none =>
      rw [if_neg]
      · rfl
      · rw [List.getElem?_eq_none_iff] at h; omega
    | some x =>
      simp only [Option.map_some, Option.getD_some]
      by_cases h1 : w = i
      · subst h1
        rw [if_neg (by omega), if_pos rfl, if_pos (by omega)]
        rfl
      · rw [if_neg h1]
        by_cases h2 : i ≤ w ∧ w ≤ j
        · rw [if_pos h2, if_pos (by omega)]; rfl
        · rw [if_neg h2, if_neg (by omega)]
  · funext s
    cases h : b.path.waypoints[s + 1]? with
    | none =>
      rw [if_neg]
      · rfl
      · rw [List.getElem?_eq_none_iff] at h; omega
    | some x =>
      simp only [Option.map_some, Option.getD_some]
      by_cases h1 : s + 1 = i
      · rw [if_neg (by omega), if_pos h1, if_neg (by omega)]
        rfl
      · rw [if_neg h1]
        by_cases h2 : i ≤ s ∧ s < j
        · rw [if_pos h2, if_pos (by omega)]; rfl
        · rw [if_neg h2, if_neg (by omega)]

omit [Dbl D] in
theorem sgmtLoop_error (c : Constraint D) (n start : ℕ) (b : Builder D)
    (h0 : start ≤ b.path.waypoints.length) (h : b.path.waypoints.length < start + n) :
    sgmtLoop c n start b = (b.withWpts (b.path.waypoints.mapIdx fun w x =>
      if start ≤ w ∧ w < b.path.waypoints.length then pushSgmt c (pushWpt c x) else x),
      some .outOfRange) := by
  obtain ⟨k, hk⟩ : ∃ k, b.path.waypoints.length = start + k := ⟨_, (Nat.add_sub_cancel' h0).symm⟩
  induction k generalizing n start b with
  | zero =>
    obtain ⟨n, rfl⟩ : ∃ m, n = m + 1 := ⟨n - 1, by omega⟩
    rw [sgmtLoop, modifyWpt_eq, if_neg (by omega)]
    have : (b.path.waypoints.mapIdx fun w x => if start ≤ w ∧ w < b.path.waypoints.length then
        pushSgmt c (pushWpt c x) else x) = b.path.waypoints := by
      apply List.ext_getElem?
      intro k
      rw [List.getElem?_mapIdx]
      simp only [show ¬ (start ≤ k ∧ k < b.path.waypoints.length) by omega, if_false]
      cases b.path.waypoints[k]? <;> rfl
    rw [this]
    rfl
  | succ k ih =>
    obtain ⟨n, rfl⟩ : ∃ m, n = m + 1 := ⟨n - 1, by omega⟩
    rw [sgmtLoop, modifyWpt_eq, if_pos (by omega)]
    simp only [andThen]
    rw [modifyWpt_eq, if_pos (by simp [withWpts]; omega)]
    simp only []
    rw [ih _ _ _ (by simp [withWpts]; omega) (by simp [withWpts]; omega)
      (by simp [withWpts]; omega)]
    simp only [withWpts, List.mapIdx_mapIdx, List.length_mapIdx]
    congr
    funext w x
    simp only [Function.comp]
    by_cases h1 : w = start
    · subst h1
      rw [if_neg (by omega), if_pos rfl, if_pos rfl, if_pos (by omega)]
    · rw [if_neg h1, if_neg h1]
      by_cases h2 : start ≤ w ∧ w < b.path.waypoints.length
      · rw [if_pos h2, if_pos (by omega)]
      · rw [if_neg h2, if_neg (by omega)]

/-- Effect on the table of changing one guess list. -/
theorem table_guess {b : Builder D} {i : ℕ} {l : List (Pose2 D)}
    (hl : b.initialGuessPoints[i]? = some l) (f : List (Pose2 D) → List (Pose2 D)) :
    table { b with initialGuessPoints := b.initialGuessPoints.set i (f l) } =
    { table b with guess := fun w => if w = i then f ((table b).guess w) else (table b).guess w } := by
  simp only [table, PathTable.mk.injEq, true_and, and_true]
  funext w
  simp only [List.getD_eq_getElem?_getD, List.getElem?_set]
  have hlen : i < b.initialGuessPoints.length := by
    by_contra h
    rw [List.getElem?_eq_none (by omega)] at hl
    cases hl
  by_cases h : i = w
  · subst h; simp only [if_true, hlen, hl, Option.getD_some]
  · have h' : ¬ w = i := fun e => h e.symm
    simp [h, h']

omit [Dbl D] in
theorem guess_some {b : Builder D} (hb : WF b) {i : ℕ} (hi : i < b.path.waypoints.length) :
    ∃ p ps, b.initialGuessPoints[i]? = some (p :: ps) := by
  have hlt : i < b.initialGuessPoints.length := by rw [hb.guess]; exact hi
  have h := hb.ne _ (List.getElem_mem hlt)
  obtain ⟨p, ps, h⟩ := List.exists_cons_of_ne_nil h
  exact ⟨p, ps, by rw [List.getElem?_eq_getElem hlt, h]⟩

theorem table_wptConstraint {b : Builder D} (hb : WF b) {i : ℕ} (hi : i < 2 ^ 63)
    (c : Constraint D) :
    ∃ b', b.wptConstraint i c = (b', none) ∧ table b' = ((table b).reach i).requireAt i c := by
  obtain ⟨b', h, ht⟩ := table_pushWpt (newWpts_len hb hi) c
  exact ⟨b', h, by rw [ht, table_newWpts hb hi]⟩

theorem table_wptInitialGuessPoint {b : Builder D} (hb : WF b) {i : ℕ} (hi : i < 2 ^ 63)
    (p : Pose2 D) : ∃ b', b.wptInitialGuessPoint i p = (b', none) ∧
      table b' = ((table b).reach i).guessAt i p := by
  obtain ⟨q, qs, hq⟩ := guess_some (step_newWpts (q := True) hb i).wf (newWpts_len hb hi)
  unfold wptInitialGuessPoint
  simp only [hq]
  refine ⟨_, rfl, ?_⟩
  rw [table_guess hq fun l => l.dropLast ++ [p], table_newWpts hb hi]
  rfl

theorem table_sgmtInitialGuessPoints {b : Builder D} (hb : WF b) {i : ℕ} (hi : i + 1 < 2 ^ 63)
    (ps : List (Pose2 D)) : ∃ b', b.sgmtInitialGuessPoints i ps = (b', none) ∧
      table b' = ((table b).reach (i + 1)).guessAlong i ps := by
  obtain ⟨q, qs, hq⟩ := guess_some (step_newWpts (q := True) hb (i + 1)).wf (newWpts_len hb hi)
  unfold sgmtInitialGuessPoints
  rw [wadd_eq (by omega)]
  simp only [hq]
  refine ⟨_, rfl, ?_⟩
  rw [table_guess hq fun l => ps ++ l, table_newWpts hb hi]
  rfl

theorem table_sgmtConstraint {b : Builder D} (hb : WF b) (asserts : Bool) {i j : ℕ} (hij : i < j)
    (hj : j < 2 ^ 63) (c : Constraint D) :
    ∃ b', b.sgmtConstraint asserts i j c = (b', none) ∧
      table b' = ((table b).reach j).requireAlong i j c := by
  have hlen := newWpts_len hb hj
  unfold sgmtConstraint
  rw [if_neg (by simp [hij]), modifyWpt_eq, if_pos (by omega)]
  simp only [andThen]
  rw [sgmtLoop_ok _ _ _ _ (by simp [withWpts]; omega), ← table_newWpts hb hj]
  refine ⟨_, rfl, ?_⟩
  rw [← table_along c (by omega : i ≤ j) hlen, show i + 1 + (j - i) = j + 1 by omega]
  rfl

end Builder

end Trajopt
