import Verif.Spec.Exhaust
import Verif.Lemmas.Builder

/-! Helper lemmas about the builder when memory runs out. -/

set_option autoImplicit false

namespace Trajopt

variable {D : Type} [Dbl D]

open Spec

namespace Scarce

omit [Dbl D] in
theorem request_cases (s : Scarce D) : ∃ r, s.request = (⟨s.builder, r⟩, none) ∨
    s.request = (⟨s.builder, r⟩, some .badAlloc) := by
  obtain ⟨b, _ | ⟨_ | _, r⟩⟩ := s
  · exact ⟨[], .inl rfl⟩
  · exact ⟨r, .inl rfl⟩
  · exact ⟨r, .inr rfl⟩

omit [Dbl D] in
theorem change_cases (f : Builder D → Builder D) (s : Scarce D) : ∃ r, s.change f = (⟨f s.builder, r⟩, none) ∨
    s.change f = (⟨s.builder, r⟩, some .badAlloc) := by
  obtain ⟨r, h | h⟩ := s.request_cases
  · exact ⟨r, .inl (by rw [change, h]; rfl)⟩
  · exact ⟨r, .inr (by rw [change, h]; rfl)⟩

/-- One turn of the loop of `NewWpts`. -/
theorem turn_cases (n : ℕ) (i : ℤ) (s : Scarce D) : ∃ r,
    newWptsLoop (n + 1) i s = (⟨s.builder, r⟩, some .badAlloc) ∨
    newWptsLoop (n + 1) i s = (⟨emplaceWaypoint s.builder, r⟩, some .badAlloc) ∨
    (i ≠ 0 ∧ newWptsLoop (n + 1) i s = (⟨emplaceGuess (emplaceWaypoint s.builder), r⟩, some .badAlloc)) ∨
    (i ≠ 0 ∧ newWptsLoop (n + 1) i s =
      newWptsLoop n (i + 1) ⟨pushCount (emplaceGuess (emplaceWaypoint s.builder)), r⟩) ∨
    (i = 0 ∧ newWptsLoop (n + 1) i s = newWptsLoop n (i + 1) ⟨emplaceGuess (emplaceWaypoint s.builder), r⟩) := by
  rw [newWptsLoop]
  obtain ⟨r, h | h⟩ := s.change_cases emplaceWaypoint <;> rw [h]
  swap
  · exact ⟨r, .inl rfl⟩
  simp only [andThen]
  obtain ⟨r', h' | h'⟩ := (⟨emplaceWaypoint s.builder, r⟩ : Scarce D).request_cases <;> rw [h']
  swap
  · exact ⟨r', .inr (.inl rfl)⟩
  dsimp only
  obtain ⟨r, h | h⟩ := (⟨emplaceWaypoint s.builder, r'⟩ : Scarce D).change_cases emplaceGuess <;> rw [h]
  swap
  · exact ⟨r, .inr (.inl rfl)⟩
  dsimp only
  by_cases hi : i = 0
  · rw [if_neg (not_not.mpr hi)]
    exact ⟨r, .inr (.inr (.inr (.inr ⟨hi, rfl⟩)))⟩
  · rw [if_pos hi]
    obtain ⟨r', h' | h'⟩ := (⟨emplaceGuess (emplaceWaypoint s.builder), r⟩ : Scarce D).change_cases pushCount <;>
      rw [h']
    · exact ⟨r', .inr (.inr (.inr (.inl ⟨hi, rfl⟩)))⟩
    · exact ⟨r', .inr (.inr (.inl ⟨hi, rfl⟩))⟩

/-! ### Calls that are not refused memory -/

/-- The outcome is that of the builder without memory, or the call was refused some. -/
def Sim (o : ScarceOut D) (p : Out D) : Prop :=
  o.2 = some .badAlloc ∨ (o.1.builder = p.1 ∧ o.2 = p.2.map .fault)

omit [Dbl D] in
theorem Sim.andThen {o : ScarceOut D} {p : Out D} (h : Sim o p) {f : Scarce D → ScarceOut D}
    {f' : Builder D → Out D} (hf : ∀ s, Sim (f s) (f' s.builder)) : Sim (andThen o f) (Builder.andThen p f') := by
  obtain ⟨s, e⟩ := o
  obtain ⟨b, e'⟩ := p
  rcases h with h | ⟨h1, h2⟩
  · obtain rfl : e = _ := h
    exact .inl rfl
  · obtain rfl : s.builder = b := h1
    obtain rfl : e = _ := h2
    cases e' with
    | none => exact hf s
    | some e => exact .inr ⟨rfl, rfl⟩

omit [Dbl D] in
theorem sim_change (f : Builder D → Builder D) (s : Scarce D) : Sim (s.change f) (f s.builder, none) := by
  obtain ⟨r, h | h⟩ := s.change_cases f
  · rw [h]; exact .inr ⟨rfl, rfl⟩
  · rw [h]; exact .inl rfl

theorem sim_newWptsLoop (n : ℕ) (i : ℤ) (s : Scarce D) :
    Sim (newWptsLoop n i s) (Builder.newWptsLoop n i s.builder, none) := by
  induction n generalizing i s with
  | zero => exact .inr ⟨rfl, rfl⟩
  | succ n ih =>
    rw [Builder.newWptsLoop]
    obtain ⟨r, h | h | ⟨hi, h⟩ | ⟨hi, h⟩ | ⟨hi, h⟩⟩ := turn_cases n i s <;> rw [h]
    · exact .inl rfl
    · exact .inl rfl
    · exact .inl rfl
    · rw [if_pos hi]
      exact ih (i + 1) _
    · rw [if_neg (not_not.mpr hi)]
      exact ih (i + 1) _

theorem sim_newWpts (k : ℕ) (s : Scarce D) : Sim (s.newWpts k) (s.builder.newWpts k, none) := by
  unfold newWpts Builder.newWpts
  dsimp only
  split
  · exact sim_newWptsLoop _ _ _
  · exact .inr ⟨rfl, rfl⟩

omit [Dbl D] in
theorem sim_pushAt (i : ℕ) (f : Waypoint D → Waypoint D) (s : Scarce D) :
    Sim (s.pushAt i f) (s.builder.modifyWpt i f) := by
  unfold pushAt Builder.modifyWpt
  split
  · exact sim_change _ s
  · exact .inr ⟨rfl, rfl⟩

theorem sim_wptConstraint (i : ℕ) (c : Constraint D) (s : Scarce D) :
    Sim (s.wptConstraint i c) (s.builder.wptConstraint i c) :=
  (sim_newWpts i s).andThen fun s => sim_pushAt i _ s

omit [Dbl D] in
theorem sim_sgmtLoop (c : Constraint D) (n i : ℕ) (s : Scarce D) :
    Sim (sgmtLoop c n i s) (Builder.sgmtLoop c n i s.builder) := by
  induction n generalizing i s with
  | zero => exact .inr ⟨rfl, rfl⟩
  | succ n ih => exact (sim_pushAt i _ s).andThen fun s => (sim_pushAt i _ s).andThen fun s => ih (i + 1) s

theorem sim_sgmtConstraint (asserts : Bool) (i j : ℕ) (c : Constraint D) (s : Scarce D) :
    Sim (s.sgmtConstraint asserts i j c) (s.builder.sgmtConstraint asserts i j c) := by
  unfold sgmtConstraint Builder.sgmtConstraint
  split
  · exact .inr ⟨rfl, rfl⟩
  · exact (sim_newWpts j s).andThen (f' := fun b => Builder.andThen (b.modifyWpt i (Builder.pushWpt c)) _)
      fun s => (sim_pushAt i _ s).andThen fun s => sim_sgmtLoop c _ _ s

theorem sim_wptInitialGuessPoint (i : ℕ) (p : Pose2 D) (s : Scarce D) :
    Sim (s.wptInitialGuessPoint i p) (s.builder.wptInitialGuessPoint i p) := by
  refine (sim_newWpts i s).andThen (f' := fun b => match b.initialGuessPoints[i]? with
    | none => (b, some .outOfRange)
    | some [] => (b, some .ub)
    | some (p' :: ps) =>
      ({ b with initialGuessPoints := b.initialGuessPoints.set i ((p' :: ps).dropLast ++ [p]) }, none))
    fun s => ?_
  rcases h : s.builder.initialGuessPoints[i]? with _ | _ | ⟨p', ps⟩ <;> exact .inr ⟨rfl, rfl⟩

theorem sim_sgmtInitialGuessPoints (i : ℕ) (ps : List (Pose2 D)) (s : Scarce D) :
    Sim (s.sgmtInitialGuessPoints i ps) (s.builder.sgmtInitialGuessPoints i ps) := by
  refine (sim_newWpts _ s).andThen (f' := fun b => match b.initialGuessPoints[wadd i 1]? with
    | none => (b, some .outOfRange)
    | some qs => ({ b with initialGuessPoints := b.initialGuessPoints.set (wadd i 1) (ps ++ qs) }, none))
    fun s => ?_
  rcases h : s.builder.initialGuessPoints[wadd i 1]? with _ | qs
  · exact .inr ⟨rfl, rfl⟩
  · exact sim_change _ s

omit [Dbl D] in
theorem sim_recordAll {record : Constraint D → Scarce D → ScarceOut D} {record' : Constraint D → Builder D → Out D}
    (hr : ∀ c s, Sim (record c s) (record' c s.builder)) (l : List (Res (Constraint D))) (s : Scarce D) :
    Sim (recordAll record l s) (Builder.recordAll record' l s.builder) := by
  induction l generalizing s with
  | nil => exact .inr ⟨rfl, rfl⟩
  | cons c l ih =>
    cases c with
    | error e => exact .inr ⟨rfl, rfl⟩
    | ok c => exact (hr c s).andThen ih

theorem sim_exec (asserts : Bool) (op : Op D) (s : Scarce D) :
    Sim (op.execScarce asserts s) (op.exec asserts s.builder) := by
  cases op with
  | setDrivetrain d => exact .inr ⟨rfl, rfl⟩
  | poseWpt i x y h => exact (sim_wptConstraint i _ s).andThen fun s => sim_wptInitialGuessPoint i _ s
  | translationWpt i x y h => exact (sim_wptConstraint i _ s).andThen fun s => sim_wptInitialGuessPoint i _ s
  | wptInitialGuessPoint i p => exact sim_wptInitialGuessPoint i p s
  | sgmtInitialGuessPoints i ps => exact sim_sgmtInitialGuessPoints i ps s
  | addBumpers o => exact sim_change _ s
  | wptObstacle i o => exact sim_recordAll (fun c s => sim_wptConstraint i c s) _ s
  | sgmtObstacle i j o => exact sim_recordAll (fun c s => sim_sgmtConstraint asserts i j c s) _ s
  | wptConstraint i c => exact sim_wptConstraint i c s
  | sgmtConstraint i j c => exact sim_sgmtConstraint asserts i j c s
  | controlIntervalCounts cs => exact .inr ⟨rfl, rfl⟩
  | addIntermediateCallback k => exact sim_change _ s

/-! ### What every call does -/

/-- One, if the call was refused memory. -/
def cost (e : Option Stop) : ℕ := if e = some .badAlloc then 1 else 0

/-- Invariant, whatever is refused. -/
structure Fit (b : Builder D) : Prop where
  len : b.path.waypoints.length ≤ 2 ^ 63
  ne : ∀ l ∈ b.initialGuessPoints, l ≠ []

/-- What any piece of a call (other than setting the counts) does. -/
structure Ends (b : Builder D) (o : ScarceOut D) : Prop where
  fit : Fit o.1.builder
  grow : b.path.waypoints.length ≤ o.1.builder.path.waypoints.length
  guess : ∃ k ≤ cost o.2, o.1.builder.path.waypoints.length + b.initialGuessPoints.length =
    b.path.waypoints.length + o.1.builder.initialGuessPoints.length + k
  counts : ∃ k ≤ cost o.2, max o.1.builder.path.waypoints.length 1 + b.controlIntervalCounts.length =
    max b.path.waypoints.length 1 + o.1.builder.controlIntervalCounts.length + k
  kept : b.controlIntervalCounts <+: o.1.builder.controlIntervalCounts
  instant : ∀ w, (table b).instant w <+: (table o.1.builder).instant w
  continuous : ∀ w, (table b).continuous w <+: (table o.1.builder).continuous w
  ub : o.2 ≠ some (.fault .ub)

theorem Ends.same {b : Builder D} (h : Fit b) (r : List Bool) {e : Option Stop} (he : e ≠ some (.fault .ub)) :
    Ends b (⟨b, r⟩, e) :=
  ⟨h, Nat.le_refl _, ⟨0, Nat.zero_le _, rfl⟩, ⟨0, Nat.zero_le _, rfl⟩, List.prefix_rfl, fun _ => List.prefix_rfl,
    fun _ => List.prefix_rfl, he⟩

theorem Ends.trans {b : Builder D} {s : Scarce D} {o : ScarceOut D} (h : Ends b (s, none)) (h' : Ends s.builder o) :
    Ends b o := by
  obtain ⟨k, hk, e⟩ := h.guess
  obtain ⟨k', hk', e'⟩ := h'.guess
  obtain ⟨m, hm, f⟩ := h.counts
  obtain ⟨m', hm', f'⟩ := h'.counts
  obtain rfl : k = 0 := by simpa [cost] using hk
  obtain rfl : m = 0 := by simpa [cost] using hm
  exact ⟨h'.fit, Nat.le_trans h.grow h'.grow, ⟨k', hk', by dsimp only at e; omega⟩, ⟨m', hm', by dsimp only at f; omega⟩,
    h.kept.trans h'.kept, fun w => (h.instant w).trans (h'.instant w),
    fun w => (h.continuous w).trans (h'.continuous w), h'.ub⟩

theorem Ends.andThen {b : Builder D} {o : ScarceOut D} (h : Ends b o) {f : Scarce D → ScarceOut D}
    (hf : ∀ s, Fit s.builder → Ends s.builder (f s)) : Ends b (andThen o f) := by
  obtain ⟨s, e⟩ := o
  cases e with
  | none => exact h.trans (hf s h.fit)
  | some e => exact h

/-- A change that keeps the numbers of waypoints and guess lists. -/
theorem ends_change {f : Builder D → Builder D} {s : Scarce D} (h : Fit s.builder)
    (hf : Ends s.builder (⟨f s.builder, []⟩, none)) : Ends s.builder (s.change f) := by
  obtain ⟨r, e | e⟩ := s.change_cases f <;> rw [e]
  · exact ⟨hf.1, hf.2, hf.3, hf.4, hf.5, hf.6, hf.7, by simp⟩
  · exact .same h r (by simp)

/-- Waypoints, guess lists and counts appended. -/
def scatter (a g c : ℕ) (b : Builder D) : Builder D :=
  { b with
    path := { b.path with waypoints := b.path.waypoints ++ List.replicate a {} }
    initialGuessPoints := b.initialGuessPoints ++ List.replicate g [originPose]
    controlIntervalCounts := b.controlIntervalCounts ++ List.replicate c 40 }

theorem newWptsLoop_scatter (n : ℕ) (i : ℤ) (s : Scarce D) (hi : i = s.builder.path.waypoints.length) :
    ∃ a g c r e, newWptsLoop n i s = (⟨scatter a g c s.builder, r⟩, e) ∧ a ≤ n ∧ e ≠ some (.fault .ub) ∧
      (∃ k ≤ cost e, a = g + k) ∧
      ∃ k ≤ cost e, max (s.builder.path.waypoints.length + a) 1 = max s.builder.path.waypoints.length 1 + c + k := by
  induction n generalizing i s with
  | zero =>
    exact ⟨0, 0, 0, s.refused, none, by simp [newWptsLoop, scatter], Nat.le_refl _, by simp, ⟨0, Nat.zero_le _, rfl⟩,
      ⟨0, Nat.zero_le _, rfl⟩⟩
  | succ n ih =>
    obtain ⟨r, h | h | ⟨hi', h⟩ | ⟨hi', h⟩ | ⟨hi', h⟩⟩ := turn_cases n i s
    · exact ⟨0, 0, 0, r, some .badAlloc, by rw [h]; simp [scatter], by omega, by simp, ⟨0, Nat.zero_le _, rfl⟩,
        ⟨0, Nat.zero_le _, rfl⟩⟩
    · by_cases h0 : s.builder.path.waypoints.length = 0
      · exact ⟨1, 0, 0, r, some .badAlloc, by rw [h]; simp [scatter, emplaceWaypoint], by omega, by simp,
          ⟨1, by simp [cost], rfl⟩, ⟨0, Nat.zero_le _, by omega⟩⟩
      · exact ⟨1, 0, 0, r, some .badAlloc, by rw [h]; simp [scatter, emplaceWaypoint], by omega, by simp,
          ⟨1, by simp [cost], rfl⟩, ⟨1, by simp [cost], by omega⟩⟩
    · exact ⟨1, 1, 0, r, some .badAlloc, by rw [h]; simp [scatter, emplaceWaypoint, emplaceGuess, originPose], by omega, by simp,
        ⟨0, Nat.zero_le _, rfl⟩, ⟨1, by simp [cost], by omega⟩⟩
    · obtain ⟨a, g, c, r, e, h', h1, h2, ⟨k, hk, h3⟩, m, hm, h4⟩ :=
        ih (i + 1) ⟨pushCount (emplaceGuess (emplaceWaypoint s.builder)), r⟩
          (by simp [pushCount, emplaceGuess, emplaceWaypoint, hi])
      refine ⟨a + 1, g + 1, c + 1, r, e, ?_, by omega, h2, ⟨k, hk, by omega⟩, m, hm, ?_⟩
      · rw [h, h']
        simp [scatter, pushCount, emplaceGuess, emplaceWaypoint, originPose, List.replicate_succ]
      · simp only [pushCount, emplaceGuess, emplaceWaypoint, List.length_append, List.length_singleton] at h4
        omega
    · obtain ⟨a, g, c, r, e, h', h1, h2, ⟨k, hk, h3⟩, m, hm, h4⟩ :=
        ih (i + 1) ⟨emplaceGuess (emplaceWaypoint s.builder), r⟩
          (by simp [emplaceGuess, emplaceWaypoint, hi])
      refine ⟨a + 1, g + 1, c, r, e, ?_, by omega, h2, ⟨k, hk, by omega⟩, m, hm, ?_⟩
      · rw [h, h']
        simp [scatter, emplaceGuess, emplaceWaypoint, originPose, List.replicate_succ]
      · simp only [emplaceGuess, emplaceWaypoint, List.length_append, List.length_singleton] at h4
        omega

theorem ends_newWpts (k : ℕ) (s : Scarce D) (h : Fit s.builder) : Ends s.builder (s.newWpts k) := by
  have hl := h.len
  generalize hL : s.builder.path.waypoints.length = L at hl
  have hg : toInt64 (wsub L 1) = (L : ℤ) - 1 := by
    unfold toInt64 wsub; split <;> omega
  have ht : toInt64 k < 2 ^ 63 := by unfold toInt64; split <;> omega
  unfold newWpts
  simp only [hL, hg]
  split
  swap
  · exact .same h _ (by simp)
  obtain ⟨a, g, c, r, e, h', h1, h2, ⟨k', hk', h3⟩, m, hm, h4⟩ :=
    newWptsLoop_scatter (toInt64 k - ((L : ℤ) - 1)).toNat ((L : ℤ) - 1 + 1) s (by omega)
  rw [h']
  rw [hL] at h4
  refine ⟨⟨?_, ?_⟩, ?_, ⟨k', hk', ?_⟩, ⟨m, hm, ?_⟩, ?_, ?_, ?_, h2⟩
  · simp only [scatter, List.length_append, List.length_replicate, hL]
    omega
  · simp only [scatter, List.mem_append, List.mem_replicate]
    rintro l (hl | ⟨-, rfl⟩)
    · exact h.ne l hl
    · simp
  · simp [scatter]
  · simp only [scatter, List.length_append, List.length_replicate]
    omega
  · simp only [scatter, List.length_append, List.length_replicate, hL]
    omega
  · simp [scatter]
  · intro w; simp only [table, scatter, Builder.getD_append_replicate]; exact List.prefix_rfl
  · intro w; simp only [table, scatter, Builder.getD_append_replicate]; exact List.prefix_rfl

theorem ends_pushAt (i : ℕ) (f : Waypoint D → Waypoint D)
    (hi : ∀ x, x.waypointConstraints <+: (f x).waypointConstraints)
    (hs : ∀ x, x.segmentConstraints <+: (f x).segmentConstraints) (s : Scarce D) (h : Fit s.builder) :
    Ends s.builder (s.pushAt i f) := by
  unfold pushAt
  split
  swap
  · exact .same h _ (by simp)
  refine ends_change h ⟨⟨by simpa using h.len, h.ne⟩, by simp, ⟨0, Nat.zero_le _, by simp⟩, ⟨0, Nat.zero_le _, by simp⟩,
    List.prefix_rfl, ?_, ?_, by simp⟩
  all_goals
    intro w
    simp only [table, List.getD_eq_getElem?_getD, List.getElem?_modify]
    split
    · rename_i h'
      rw [← h']
      rcases s.builder.path.waypoints[i]? with _ | x
      · exact List.prefix_rfl
      · first | exact hi _ | exact hs _
    · simp

theorem ends_wptConstraint (i : ℕ) (c : Constraint D) (s : Scarce D) (h : Fit s.builder) :
    Ends s.builder (s.wptConstraint i c) :=
  (ends_newWpts i s h).andThen fun s h => ends_pushAt i _ (by simp [Builder.pushWpt]) (by simp [Builder.pushWpt]) s h

theorem ends_sgmtLoop (c : Constraint D) (n i : ℕ) (s : Scarce D) (h : Fit s.builder) :
    Ends s.builder (sgmtLoop c n i s) := by
  induction n generalizing i s with
  | zero => exact .same h _ (by simp)
  | succ n ih =>
    exact (ends_pushAt i _ (by simp [Builder.pushWpt]) (by simp [Builder.pushWpt]) s h).andThen fun s h =>
      (ends_pushAt i _ (by simp [Builder.pushSgmt]) (by simp [Builder.pushSgmt]) s h).andThen fun s h => ih (i + 1) s h

theorem ends_sgmtConstraint (asserts : Bool) (i j : ℕ) (c : Constraint D) (s : Scarce D) (h : Fit s.builder) :
    Ends s.builder (s.sgmtConstraint asserts i j c) := by
  unfold sgmtConstraint
  split
  · exact .same h _ (by simp)
  · exact (ends_newWpts j s h).andThen fun s h =>
      (ends_pushAt i _ (by simp [Builder.pushWpt]) (by simp [Builder.pushWpt]) s h).andThen fun s h =>
        ends_sgmtLoop c _ _ s h

theorem ends_set {b : Builder D} (h : Fit b) (i : ℕ) (l : List (Pose2 D)) (hl : l ≠ []) (r : List Bool) :
    Ends b (⟨{ b with initialGuessPoints := b.initialGuessPoints.set i l }, r⟩, none) := by
  refine ⟨⟨h.len, ?_⟩, Nat.le_refl _, ⟨0, Nat.zero_le _, by simp⟩, ⟨0, Nat.zero_le _, rfl⟩, List.prefix_rfl,
    fun _ => List.prefix_rfl, fun _ => List.prefix_rfl, by simp⟩
  intro l' hl'
  rcases List.mem_or_eq_of_mem_set hl' with h' | h'
  · exact h.ne _ h'
  · exact h' ▸ hl

theorem ends_wptInitialGuessPoint (i : ℕ) (p : Pose2 D) (s : Scarce D) (h : Fit s.builder) :
    Ends s.builder (s.wptInitialGuessPoint i p) := by
  refine (ends_newWpts i s h).andThen fun s h => ?_
  rcases hg : s.builder.initialGuessPoints[i]? with _ | _ | ⟨p', ps⟩
  · exact .same h _ (by simp)
  · exact absurd rfl (h.ne _ (List.mem_of_getElem? hg))
  · exact ends_set h i _ (by simp) _

theorem ends_sgmtInitialGuessPoints (i : ℕ) (ps : List (Pose2 D)) (s : Scarce D) (h : Fit s.builder) :
    Ends s.builder (s.sgmtInitialGuessPoints i ps) := by
  refine (ends_newWpts _ s h).andThen fun s h => ?_
  rcases hg : s.builder.initialGuessPoints[wadd i 1]? with _ | qs
  · exact .same h _ (by simp)
  · have := h.ne _ (List.mem_of_getElem? hg)
    exact ends_change h (ends_set h _ _ (by simp [this]) _)

theorem ends_recordAll {record : Constraint D → Scarce D → ScarceOut D}
    (hr : ∀ c s, Fit s.builder → Ends s.builder (record c s)) (l : List (Res (Constraint D)))
    (hl : .error .ub ∉ l) (s : Scarce D) (h : Fit s.builder) : Ends s.builder (recordAll record l s) := by
  induction l generalizing s with
  | nil => exact .same h _ (by simp)
  | cons c l ih =>
    cases c with
    | error e =>
      refine .same h _ ?_
      rintro he
      obtain rfl : e = .ub := by simpa using he
      simp at hl
    | ok c => exact (hr c s h).andThen fun s h => ih (by simp at hl; exact hl) s h

end Scarce

end Trajopt
