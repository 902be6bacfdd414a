import Verif.Props.Examples
import Verif.Props.Reach

/-!
# C83 Which waypoints a trajectory visits
-/

set_option autoImplicit false

namespace Trajopt.Props

open Spec Builder

/-- Two waypoints, and no count for the segment between them. -/
noncomputable def uncountedOps : List (Op ℝ) :=
  [.setDrivetrain shippedRobot, .poseWpt 0 0 0 0, .poseWpt 1 1 0 0, .controlIntervalCounts []]

theorem uncounted : ∃ b, b = run true uncountedOps Builder.new ∧
    (∀ before op after, uncountedOps = before ++ op :: after →
      (op.exec true (run true before Builder.new)).2 = none) ∧
    (table b).waypoints = 2 ∧ .poseEquality 1 0 0 ∈ (table b).instant 1 ∧
    (∃ T, Solves b shippedRobot T) ∧
    ∀ T, Solves b shippedRobot T → ∀ n < sampleCount (table b).counts, (T.state n).pos = 0 := by
  have hops : uncountedOps = [.setDrivetrain shippedRobot, .poseWpt 0 0 0 0, .poseWpt 1 1 0 0,
    .controlIntervalCounts []] := rfl
  generalize uncountedOps = ops at hops ⊢
  have h : PathTable.AcceptsAll true PathTable.empty ops := by
    simp [hops, PathTable.AcceptsAll, PathTable.Accepts]
  obtain ⟨e, hr⟩ := ready_of (dr := shippedRobot) h _ rfl
    (by simp [hops, PathTable.afterAll, PathTable.after, PathTable.reach, PathTable.requireAt,
      PathTable.guessAt])
    (by simp [hops, PathTable.afterAll, PathTable.after, PathTable.reach, PathTable.requireAt,
      PathTable.guessAt])
    (by simp [hops, PathTable.afterAll, PathTable.after, sampleCount])
  have hn : (table (run true ops Builder.new)).counts = [] := by
    rw [e]; simp [hops, PathTable.afterAll, PathTable.after]
  have hi : (table (run true ops Builder.new)).instant 0 = [.poseEquality 0 0 0] := by
    rw [e]; simp [hops, PathTable.afterAll, PathTable.after, PathTable.reach, PathTable.requireAt,
      PathTable.guessAt, PathTable.empty]
  refine ⟨_, rfl, (C81_history true ops h).2, ?_, ?_, ⟨stillTraj 0 1, ?_⟩, ?_⟩
  · rw [e]; simp [hops, PathTable.afterAll, PathTable.after, PathTable.reach, PathTable.requireAt,
      PathTable.guessAt, PathTable.empty]
  · rw [e]; simp [hops, PathTable.afterAll, PathTable.after, PathTable.reach, PathTable.requireAt,
      PathTable.guessAt, PathTable.empty]
  · refine C68_rest _ ⟨true, ops, rfl⟩ _ hr shipped_radius 0 1 (by simp) ?_ ?_
    · intro w hw c hc
      rw [hn] at hw
      obtain rfl : w = 0 := by simpa using hw
      rw [hi] at hc
      obtain rfl := List.mem_singleton.mp hc
      exact ⟨by apply Complex.ext <;> simp [vec], .inl (by simp [unitVec])⟩
    · intro s hs
      rw [hn] at hs
      simp at hs
  · intro T hT n hn'
    rw [hn] at hn'
    obtain rfl : n = 0 := by simpa [sampleCount] using hn'
    have := (hT.obeys.instant 0 (Nat.zero_le _) (.poseEquality 0 0 0) (by rw [hi]; simp)).1
    rw [show waypointSample _ 0 = 0 by simp [waypointSample]] at this
    rw [this]
    apply Complex.ext <;> simp [vec]

/-- C83 (refuted): with a count for too few segments a problem is generated, and no solution of it comes
near the last waypoint. -/
theorem C83_refuted : ∃ ops : List (Op ℝ), ∃ b, b = run true ops Builder.new ∧
    (∀ before op after, ops = before ++ op :: after →
      (op.exec true (run true before Builder.new)).2 = none) ∧
    (table b).waypoints = 2 ∧ .poseEquality 1 0 0 ∈ (table b).instant 1 ∧
    (∃ T, Solves b shippedRobot T) ∧
    ∀ T, Solves b shippedRobot T → ∀ n < sampleCount (table b).counts, (T.state n).pos = 0 :=
  ⟨uncountedOps, uncounted⟩

/-- C83: whatever is required beyond the last segment with a count is ignored. -/
theorem C83_ignored (b b' : Builder ℝ) (hb : Reachable b) (hb' : Reachable b')
    (dr : SwerveDrivetrain ℝ) (hr : Ready b dr) (hr' : Ready b' dr)
    (hradius : ∀ m ∈ dr.modules, m.wheelRadius ≠ 0)
    (hN : (table b').counts = (table b).counts)
    (hi : ∀ w ≤ (table b).counts.length, (table b').instant w = (table b).instant w)
    (hc : ∀ s < (table b).counts.length, (table b').continuous s = (table b).continuous s) (T : Traj) :
    Solves b dr T ↔ Solves b' dr T := by
  rw [solves_iff hb hr hradius, solves_iff hb' hr' hradius]
  constructor
  · rintro ⟨h1, h2, h3, h4, h5, h6⟩
    refine ⟨by rwa [hN], by rwa [hN], by rwa [hN], by rwa [hN], ?_, ?_⟩
    · intro w hw c hc'
      rw [hN] at hw ⊢
      exact h5 w hw c (by rwa [hi w hw] at hc')
    · intro s hs c hc'
      rw [hN] at hs ⊢
      exact h6 s hs c (by rwa [hc s hs] at hc')
  · rintro ⟨h1, h2, h3, h4, h5, h6⟩
    rw [hN] at h1 h2 h3 h4 h5 h6
    exact ⟨h1, h2, h3, h4, fun w hw c hc' => h5 w hw c (by rwa [hi w hw]),
      fun s hs c hc' => h6 s hs c (by rwa [hc s hs])⟩

/-- C83, the part that holds: if there is a count for every segment, every solution satisfies what is required
at every waypoint, at a sample of its own if every segment has control intervals. -/
theorem C83_visited_partial (b : Builder ℝ) (dr : SwerveDrivetrain ℝ) (T : Traj) (h : Solves b dr T)
    (hall : (table b).waypoints = (table b).counts.length + 1) :
    ∃ visit : ℕ → ℕ, (∀ w < (table b).waypoints, visit w < sampleCount (table b).counts ∧
        ∀ c ∈ (table b).instant w, Meaning c (T.state (visit w))) ∧
      (∀ w w', w ≤ w' → visit w ≤ visit w') ∧
      ((∀ N ∈ (table b).counts, 0 < N) →
        ∀ w w', w < w' → w' < (table b).waypoints → visit w < visit w') := by
  have mono : ∀ w w', w ≤ w' →
      waypointSample (table b).counts w ≤ waypointSample (table b).counts w' := by
    intro w w' hw
    obtain ⟨d, rfl⟩ := Nat.exists_eq_add_of_le hw
    unfold waypointSample
    rw [List.take_add, List.sum_append]
    exact Nat.le_add_right _ _
  refine ⟨waypointSample (table b).counts, ?_, mono, ?_⟩
  · intro w hw
    refine ⟨?_, h.obeys.instant w (by omega)⟩
    have := mono w (max w (table b).counts.length) (le_max_left _ _)
    rw [waypointSample, waypointSample, List.take_of_length_le (le_max_right _ _)] at this
    unfold sampleCount waypointSample
    omega
  · intro hpos w w' hw hw'
    refine lt_of_lt_of_le ?_ (mono (w + 1) w' hw)
    have hl : w < (table b).counts.length := by omega
    have := hpos _ (List.getElem_mem hl)
    rw [waypointSample, waypointSample, List.take_succ_eq_append_getElem hl, List.sum_append,
      List.sum_singleton]
    omega

/-- C83, the part that holds: there is a count for every segment if `ControlIntervalCounts` was never
called. -/
theorem C83_default_partial (asserts : Bool) (ops : List (Op ℝ)) (b : Builder ℝ)
    (hb : b = run asserts ops Builder.new) (hops : ∀ cs, Op.controlIntervalCounts cs ∉ ops)
    (dr : SwerveDrivetrain ℝ) (hr : Ready b dr) :
    (table b).waypoints = (table b).counts.length + 1 ∧ ∀ N ∈ (table b).counts, 0 < N := by
  have h : (table b).counts = List.replicate ((table b).waypoints - 1) 40 :=
    C09_default_counts asserts ops b hb hops
  have := hr.counts
  refine ⟨?_, ?_⟩
  · rw [h, List.length_replicate]; omega
  · intro N hN
    rw [h] at hN
    rw [(List.mem_replicate.mp hN).2]
    norm_num

/-- C83, the part that holds: otherwise exactly if the last call of `ControlIntervalCounts` gave a count
for every segment there was then. -/
theorem C83_counts_partial (asserts : Bool) (before after : List (Op ℝ)) (c : List ℕ) (b b' : Builder ℝ)
    (hb : b = run asserts before Builder.new)
    (hb' : b' = run asserts (before ++ .controlIntervalCounts c :: after) Builder.new)
    (hops : ∀ cs, Op.controlIntervalCounts cs ∉ after) (dr : SwerveDrivetrain ℝ) (hr : Ready b' dr) :
    (table b').waypoints = (table b').counts.length + 1 ↔ (table b).waypoints = c.length + 1 ∨
      ((table b).waypoints = 0 ∧ c = []) := by
  have hb'' : b' = run asserts (.controlIntervalCounts c :: after) b := by
    rw [hb', hb, run, List.foldl_append]; rfl
  have h : (table b').counts = c ++ List.replicate ((table b').waypoints - max (table b).waypoints 1) 40 :=
    C09_set_counts asserts before after c b b' hb hb'' hops
  have hw := (C10_append_only asserts before (.controlIntervalCounts c :: after) b b' hb hb'').1
  have := hr.counts
  rw [h, List.length_append, List.length_replicate, ← List.length_eq_zero_iff] at *
  omega

/-- C83: if a segment has no control intervals and different positions are wanted at its ends, nothing
solves the problem. -/
theorem C83_stacked (b : Builder ℝ) (dr : SwerveDrivetrain ℝ) (s : ℕ)
    (hs : (table b).counts[s]? = some 0) (p q : Translation2 ℝ) (hpq : p ≠ q)
    (hp : .translationEquality p ∈ (table b).instant s ∨
      ∃ h, .poseEquality p.x p.y h ∈ (table b).instant s)
    (hq : .translationEquality q ∈ (table b).instant (s + 1) ∨
      ∃ h, .poseEquality q.x q.y h ∈ (table b).instant (s + 1)) (T : Traj) : ¬ Solves b dr T := by
  intro h
  obtain ⟨hl, h0⟩ := List.getElem?_eq_some_iff.mp hs
  have hsame : waypointSample (table b).counts (s + 1) = waypointSample (table b).counts s := by
    rw [waypointSample, waypointSample, List.take_succ_eq_append_getElem hl, List.sum_append, h0]
    simp
  have o := h.obeys
  have e1 : (T.state (waypointSample (table b).counts s)).pos = vec p := by
    rcases hp with hp | ⟨θ, hp⟩
    · exact o.instant s hl.le _ hp
    · exact (o.instant s hl.le _ hp).1
  have e2 : (T.state (waypointSample (table b).counts s)).pos = vec q := by
    rw [← hsame]
    rcases hq with hq | ⟨θ, hq⟩
    · exact o.instant (s + 1) hl _ hq
    · exact (o.instant (s + 1) hl _ hq).1
  apply hpq
  have e := e1.symm.trans e2
  have h1 := congrArg Complex.re e
  have h2 := congrArg Complex.im e
  simp only [vec] at h1 h2
  cases p; cases q
  simp_all

/-- C83, non-vacuity: the first example program has a count for every segment, and a solution. -/
example : (table (run true Examples.cpp1 (Builder.new : Builder ℝ))).waypoints = 2 ∧
    (table (run true Examples.cpp1 (Builder.new : Builder ℝ))).counts = [40] ∧
    ∃ T, Solves (run true Examples.cpp1 Builder.new) shippedRobot T := by
  have e : table (run true Examples.cpp1 (Builder.new : Builder ℝ)) = _ :=
    (C81_history true Examples.cpp1
      (by simp [Examples.cpp1, PathTable.AcceptsAll, PathTable.Accepts])).1
  obtain ⟨T, hT⟩ := (shipped1 true).2
  exact ⟨by rw [e]; simp [Examples.cpp1, PathTable.afterAll, PathTable.after, PathTable.reach,
      PathTable.requireAt, PathTable.guessAt, PathTable.empty],
    by rw [e]; simp [Examples.cpp1, PathTable.afterAll, PathTable.after], T, hT.1⟩

end Trajopt.Props
