import Verif.Lemmas.Clearance
import Verif.Props.Backwards
import Mathlib.Analysis.Complex.ReImTopology

/-!
# C97 Robot and obstacles stay apart between samples too
# C98 What is outside the bumpers stays outside
-/

set_option autoImplicit false

namespace Trajopt.Props

open Spec

/-! ### Which keep-outs a program requires -/

theorem after_keeps (t : PathTable ℝ) (op : Op ℝ) (w : ℕ) (c : Constraint ℝ) :
    (c ∈ t.instant w → c ∈ (t.after op).instant w) ∧
    (c ∈ t.continuous w → c ∈ (t.after op).continuous w) := by
  cases op with
  | setDrivetrain d => exact ⟨id, id⟩
  | poseWpt i x y a =>
    simp only [PathTable.after, PathTable.guessAt, PathTable.requireAt, PathTable.reach]
    refine ⟨fun h => ?_, id⟩
    split
    · exact List.mem_append_left _ h
    · exact h
  | translationWpt i x y a =>
    simp only [PathTable.after, PathTable.guessAt, PathTable.requireAt, PathTable.reach]
    refine ⟨fun h => ?_, id⟩
    split
    · exact List.mem_append_left _ h
    · exact h
  | wptInitialGuessPoint i p => exact ⟨id, id⟩
  | sgmtInitialGuessPoints i p => exact ⟨id, id⟩
  | addBumpers o => exact ⟨id, id⟩
  | wptObstacle i o =>
    simp only [PathTable.after, PathTable.requireAllAt]
    split
    · exact ⟨id, id⟩
    · simp only [PathTable.reach]
      refine ⟨fun h => ?_, id⟩
      split
      · exact List.mem_append_left _ h
      · exact h
  | sgmtObstacle i j o =>
    simp only [PathTable.after, PathTable.requireAllAlong]
    split
    · exact ⟨id, id⟩
    · simp only
      refine ⟨fun h => ?_, fun h => ?_⟩
      all_goals
        split
        · exact List.mem_append_left _ h
        · exact h
  | wptConstraint i k =>
    simp only [PathTable.after, PathTable.requireAt, PathTable.reach]
    refine ⟨fun h => ?_, id⟩
    split
    · exact List.mem_append_left _ h
    · exact h
  | sgmtConstraint i j k =>
    simp only [PathTable.after, PathTable.requireAlong, PathTable.reach]
    refine ⟨fun h => ?_, fun h => ?_⟩
    all_goals
      split
      · exact List.mem_append_left _ h
      · exact h
  | controlIntervalCounts cs => exact ⟨id, id⟩
  | addIntermediateCallback k => exact ⟨id, id⟩

theorem afterAll_keeps (ops : List (Op ℝ)) : ∀ (t : PathTable ℝ) (w : ℕ) (c : Constraint ℝ),
    (c ∈ t.instant w → c ∈ (t.afterAll ops).instant w) ∧
    (c ∈ t.continuous w → c ∈ (t.afterAll ops).continuous w) := by
  induction ops with
  | nil => intro t w c; exact ⟨id, id⟩
  | cons op ops ih =>
    intro t w c
    exact ⟨fun h => (ih _ w c).1 ((after_keeps t op w c).1 h),
      fun h => (ih _ w c).2 ((after_keeps t op w c).2 h)⟩

theorem afterAll_append (pre post : List (Op ℝ)) : ∀ t : PathTable ℝ,
    t.afterAll (pre ++ post) = (t.afterAll pre).afterAll post := by
  induction pre with
  | nil => intro t; rfl
  | cons op pre ih => intro t; exact ih _

theorem afterAll_bumpers (ops : List (Op ℝ)) : ∀ t : PathTable ℝ,
    (t.afterAll ops).bumpers = t.bumpers ++ bumpersOf ops := by
  induction ops with
  | nil => intro t; simp [PathTable.afterAll, bumpersOf]
  | cons op ops ih =>
    intro t
    rw [PathTable.afterAll, ih]
    cases op <;> simp [PathTable.after, bumpersOf, PathTable.guessAt, PathTable.guessAlong,
      PathTable.requireAt, PathTable.requireAlong, PathTable.reach, PathTable.requireAllAt,
      PathTable.requireAllAlong]
    all_goals split <;> simp

/-- C97: after an accepted program with a call `SgmtObstacle(i, j, o)` all keep-outs between `o` and
every bumper registered before the call are required from waypoint `i` to waypoint `j`, whatever is
called later. -/
theorem C97_required (asserts : Bool) (pre post : List (Op ℝ)) (i j : ℕ) (o : Obstacle ℝ)
    (h : PathTable.AcceptsAll asserts PathTable.empty (pre ++ .sgmtObstacle i j o :: post))
    (hij : i < j) (bum : Obstacle ℝ) (hb : bum ∈ bumpersOf pre) :
    (table (run asserts (pre ++ .sgmtObstacle i j o :: post) Builder.new)).Requires i j
      (keepOuts o bum) := by
  rw [(C81_history asserts _ h).1, afterAll_append]
  set t := (PathTable.empty : PathTable ℝ).afterAll pre with ht
  have hbum : bum ∈ t.bumpers := by
    rw [ht, afterAll_bumpers]
    exact List.mem_append_right _ hb
  have hmem : ∀ c ∈ keepOuts o bum, c ∈ t.bumpers.flatMap (keepOuts o) := fun c hc =>
    List.mem_flatMap.mpr ⟨bum, hbum, hc⟩
  refine ⟨fun c hc => ?_, fun s h1 h2 c hc => ?_⟩
  · refine (afterAll_keeps post _ i c).1 ?_
    simp only [PathTable.after, PathTable.requireAllAlong]
    rw [if_neg (List.ne_nil_of_mem (hmem c hc))]
    simp only
    rw [if_pos ⟨le_rfl, hij.le⟩]
    exact List.mem_append_right _ (hmem c hc)
  · refine (afterAll_keeps post _ s c).2 ?_
    simp only [PathTable.after, PathTable.requireAllAlong]
    rw [if_neg (List.ne_nil_of_mem (hmem c hc))]
    simp only
    rw [if_pos ⟨h1, h2⟩]
    exact List.mem_append_right _ (hmem c hc)

/-! ### Between samples -/

theorem requires_meaning {b : Builder ℝ} {dr : SwerveDrivetrain ℝ} {T : Traj} (h : Solves b dr T)
    {i j : ℕ} (hj : j ≤ (table b).counts.length) (hij : i ≤ j) {cs : List (Constraint ℝ)}
    (hreq : (table b).Requires i j cs) {n : ℕ} (h1 : waypointSample (table b).counts i ≤ n)
    (h2 : n ≤ waypointSample (table b).counts j) : ∀ c ∈ cs, Meaning c (T.state n) := by
  intro c hc
  rcases sample_between _ i j n h1 h2 with rfl | ⟨s, hs1, hs2, hs, hn⟩
  · exact h.obeys.instant i (by omega) c (hreq.instant c hc)
  · exact h.obeys.continuous s hs c (hreq.continuous s hs1 hs2 c hc) n hn

theorem clear_of_meaning {st : State} {obs bum : Obstacle ℝ} {d : ℝ}
    (hd : d = bum.safetyDistance + obs.safetyDistance) (hd0 : 0 ≤ d)
    (h : ∀ c ∈ keepOuts obs bum, Meaning c st) :
    Clear st.onRobot vec bum.points obs.points (min d (Real.sqrt d)) := by
  have hsq : ∀ x : ℝ, 0 ≤ x → d ≤ x ^ 2 → min d (Real.sqrt d) ≤ x := fun x hx hdx =>
    (min_le_right _ _).trans (Real.sqrt_le_iff.mpr ⟨hx, hdx⟩)
  refine ⟨fun e he q hq z hz => ?_, fun e he p hp z hz => ?_, fun q hq p hp => ?_⟩
  · have := h _ (keepOuts_edge he hq)
    simp only [Meaning, ← hd, abs_of_nonneg hd0] at this
    exact hsq _ dist_nonneg (this.2 z hz)
  · have := h _ (keepOuts_edge' he hp)
    simp only [Meaning, ← hd, abs_of_nonneg hd0] at this
    exact hsq _ dist_nonneg (this.2 z hz)
  · have := h _ (keepOuts_point hq hp)
    simp only [Meaning, ← hd, abs_of_nonneg hd0] at this
    exact (min_le_left _ _).trans this

/-- C97 for bumper corners that move less than twice the clearance `e` per control interval, and
outlines that do not cross at the first sample: the outlines are at least `e` apart at all samples, and
at least `√(e² - s²/4)` apart in between.  Here `e` is `min d √d`, `d` being the summed safety
distance (C24).  Missing: longer steps, see `C97_refuted`. -/
theorem C97_apart_partial (b : Builder ℝ) (dr : SwerveDrivetrain ℝ) (T : Traj) (h : Solves b dr T)
    (obs bum : Obstacle ℝ) (hobs : obs.points ≠ []) (hbum : bum.points ≠ []) (i j : ℕ) (hij : i ≤ j)
    (hj : j ≤ (table b).counts.length) (hreq : (table b).Requires i j (keepOuts obs bum))
    (d e s : ℝ) (hd : d = bum.safetyDistance + obs.safetyDistance) (hd0 : 0 ≤ d)
    (he : e = min d (Real.sqrt d)) (first last : ℕ) (hf : first = waypointSample (table b).counts i)
    (hl : last = waypointSample (table b).counts j)
    (hs : ∀ n, first ≤ n → n < last → ∀ p ∈ bum.points,
      dist ((T.state n).onRobot p) ((T.state (n + 1)).onRobot p) ≤ s)
    (hse : s < 2 * e) (hno : NoCrossing (T.state first).onRobot vec bum.points obs.points) :
    (∀ n, first ≤ n → n ≤ last → ∀ z ∈ outline (T.state n).onRobot bum.points,
      ∀ w ∈ outline vec obs.points, e ≤ dist z w) ∧
    ∀ n, first ≤ n → n < last → ∀ t : ℝ, 0 ≤ t → t ≤ 1 →
      ∀ z ∈ outline (blend (T.state n).onRobot (T.state (n + 1)).onRobot t) bum.points,
      ∀ w ∈ outline vec obs.points, Real.sqrt (e ^ 2 - s ^ 2 / 4) ≤ dist z w := by
  have he0 : 0 ≤ e := he ▸ le_min hd0 (Real.sqrt_nonneg _)
  have hclear : ∀ n, first ≤ n → n ≤ last →
      Clear (T.state n).onRobot vec bum.points obs.points e := fun n h1 h2 =>
    he ▸ clear_of_meaning hd hd0
      (requires_meaning h hj hij hreq (hf ▸ h1) (hl ▸ h2))
  have hcross : ∀ k, first + k ≤ last →
      NoCrossing (T.state (first + k)).onRobot vec bum.points obs.points := by
    intro k
    induction k with
    | zero => intro _; exact hno
    | succ k ih =>
      intro hk
      have := noCrossing_blend he0 hbum hobs (hclear (first + k) (by omega) (by omega))
        (hclear (first + (k + 1)) (by omega) (by omega)) (hs (first + k) (by omega) (by omega)) hse
        (ih (by omega)) (t := 1) zero_le_one le_rfl
      have e1 : blend (T.state (first + k)).onRobot (T.state (first + (k + 1))).onRobot 1 =
          (T.state (first + (k + 1))).onRobot := by
        funext p
        simp [blend]
      rwa [e1] at this
  have hcross' : ∀ n, first ≤ n → n ≤ last →
      NoCrossing (T.state n).onRobot vec bum.points obs.points := by
    intro n h1 h2
    obtain ⟨k, rfl⟩ := Nat.exists_eq_add_of_le h1
    exact hcross k h2
  refine ⟨fun n h1 h2 => (hclear n h1 h2).apart hbum hobs (hcross' n h1 h2), ?_⟩
  intro n h1 h2 t t0 t1
  exact ((hclear n h1 h2.le).blend he0 (hclear (n + 1) (by omega) h2) (hs n h1 h2) t0 t1).apart hbum
    hobs (noCrossing_blend he0 hbum hobs (hclear n h1 h2.le) (hclear (n + 1) (by omega) h2)
      (hs n h1 h2) hse (hcross' n h1 h2.le) t0 t1)

theorem onRobot_step {s s' : State} (h : s'.heading = s.heading) (r : Translation2 ℝ) :
    dist (s.onRobot r) (s'.onRobot r) = ‖s'.pos - s.pos‖ := by
  rw [dist_comm, Complex.dist_eq, State.onRobot, State.onRobot, h]
  congr 1
  ring

/-- The samples from waypoint `i` to waypoint `j` are samples. -/
theorem waypointSample_lt (N : List ℕ) (j : ℕ) : waypointSample N j < sampleCount N := by
  rw [waypointSample, sampleCount]
  have := List.sum_take_add_sum_drop N j
  omega

/-- C97 for robots that do not turn: the step cap the code computes from the module positions is small
enough if it is less than twice the clearance. -/
theorem C97_translating_partial (b : Builder ℝ) (dr : SwerveDrivetrain ℝ) (T : Traj) (h : Solves b dr T)
    (obs bum : Obstacle ℝ) (hobs : obs.points ≠ []) (hbum : bum.points ≠ []) (i j : ℕ) (hij : i ≤ j)
    (hj : j ≤ (table b).counts.length) (hreq : (table b).Requires i j (keepOuts obs bum))
    (d e : ℝ) (hd : d = bum.safetyDistance + obs.safetyDistance) (hd0 : 0 ≤ d)
    (he : e = min d (Real.sqrt d)) (first last : ℕ) (hf : first = waypointSample (table b).counts i)
    (hl : last = waypointSample (table b).counts j)
    (hcentre : (dr.modules.map fun m => vec m.translation).sum = 0)
    (hpos : ∀ m ∈ dr.modules, 0 ≤ m.wheelRadius * m.wheelMaxAngularVelocity)
    (k : ℕ) (hk : k + 1 < dr.modules.length) (g : ℝ) (hg0 : g ≠ 0)
    (hg : g = |dr.modules[k].translation.x - dr.modules[k + 1].translation.x| ∨
      g = |dr.modules[k].translation.y - dr.modules[k + 1].translation.y|)
    (u : ℂ) (hu : ‖u‖ = 1) (hturn : ∀ n, first ≤ n → n ≤ last → (T.state n).heading = u)
    (hge : g < 2 * e) (hno : NoCrossing (T.state first).onRobot vec bum.points obs.points) :
    (∀ n, first ≤ n → n ≤ last → ∀ z ∈ outline (T.state n).onRobot bum.points,
      ∀ w ∈ outline vec obs.points, e ≤ dist z w) ∧
    ∀ n, first ≤ n → n < last → ∀ t : ℝ, 0 ≤ t → t ≤ 1 →
      ∀ z ∈ outline (blend (T.state n).onRobot (T.state (n + 1)).onRobot t) bum.points,
      ∀ w ∈ outline vec obs.points, Real.sqrt (e ^ 2 - g ^ 2 / 4) ≤ dist z w := by
  refine C97_apart_partial b dr T h obs bum hobs hbum i j hij hj hreq d e g hd hd0 he first last hf hl
    (fun n h1 h2 p _ => ?_) hge hno
  rw [onRobot_step (by rw [hturn n h1 h2.le, hturn (n + 1) (by omega) h2])]
  have hlast := waypointSample_lt (table b).counts j
  refine C38_step b dr T h n (by omega) ?_ hcentre hpos k hk g hg0 hg
  rw [hturn (n + 1) (by omega) h2, hu]

/-- C97 for a single point of the robot kept at distance `d` from `p`: between samples it comes as close
as `√(d² - s²/4)`, `s` being how far it moves. -/
theorem C97_point_partial (b : Builder ℝ) (dr : SwerveDrivetrain ℝ) (T : Traj) (h : Solves b dr T)
    (r p : Translation2 ℝ) (d : ℝ) (hd0 : 0 ≤ d) (i j : ℕ) (hij : i ≤ j)
    (hj : j ≤ (table b).counts.length) (hreq : (table b).Requires i j [.pointPoint r p d])
    (n : ℕ) (h1 : waypointSample (table b).counts i ≤ n) (h2 : n < waypointSample (table b).counts j)
    (z : ℂ) (hz : z ∈ segment ℝ ((T.state n).onRobot r) ((T.state (n + 1)).onRobot r)) :
    d ^ 2 - dist ((T.state n).onRobot r) ((T.state (n + 1)).onRobot r) ^ 2 / 4 ≤
      dist z (vec p) ^ 2 := by
  have m1 := requires_meaning h hj hij hreq h1 h2.le _ (List.mem_singleton_self _)
  have m2 := requires_meaning h hj hij hreq (n := n + 1) (by omega) h2 _ (List.mem_singleton_self _)
  simp only [Meaning, abs_of_nonneg hd0] at m1 m2
  rw [segment_eq_image] at hz
  obtain ⟨t, ⟨t0, t1⟩, rfl⟩ := hz
  have := chord hd0 m1 m2 le_rfl t0 t1
  simpa only [Complex.real_smul] using this

/-- C97 for the robot's origin: the step cap bounds how much closer it comes. -/
theorem C97_origin_partial (b : Builder ℝ) (dr : SwerveDrivetrain ℝ) (T : Traj) (h : Solves b dr T)
    (p : Translation2 ℝ) (d : ℝ) (hd0 : 0 ≤ d) (i j : ℕ) (hij : i ≤ j)
    (hj : j ≤ (table b).counts.length) (hreq : (table b).Requires i j [.pointPoint ⟨0, 0⟩ p d])
    (hcentre : (dr.modules.map fun m => vec m.translation).sum = 0)
    (hpos : ∀ m ∈ dr.modules, 0 ≤ m.wheelRadius * m.wheelMaxAngularVelocity)
    (k : ℕ) (hk : k + 1 < dr.modules.length) (g : ℝ) (hg0 : g ≠ 0)
    (hg : g = |dr.modules[k].translation.x - dr.modules[k + 1].translation.x| ∨
      g = |dr.modules[k].translation.y - dr.modules[k + 1].translation.y|)
    (n : ℕ) (h1 : waypointSample (table b).counts i ≤ n) (h2 : n < waypointSample (table b).counts j)
    (hu : ‖(T.state (n + 1)).heading‖ = 1)
    (z : ℂ) (hz : z ∈ segment ℝ (T.state n).pos (T.state (n + 1)).pos) :
    d ^ 2 - g ^ 2 / 4 ≤ dist z (vec p) ^ 2 := by
  have e0 : ∀ s : State, s.onRobot ⟨0, 0⟩ = s.pos := fun s => by
    have : vec (⟨0, 0⟩ : Translation2 ℝ) = 0 := rfl
    rw [State.onRobot, this, zero_mul, add_zero]
  have := C97_point_partial b dr T h ⟨0, 0⟩ p d hd0 i j hij hj hreq n h1 h2 z (by rwa [e0, e0])
  rw [e0, e0, dist_comm, Complex.dist_eq] at this
  have hlast := waypointSample_lt (table b).counts j
  have hstep := C38_step b dr T h n (by omega) hu hcentre hpos k hk g hg0 hg
  have := pow_le_pow_left₀ (norm_nonneg _) hstep 2
  linarith

/-! ### A point keep-out that is driven through -/

/-- A robot that rolls along the x axis at constant speed. -/
noncomputable def coast (x v dt : ℝ) : Traj where
  state n := ⟨(x + n * (v * dt) : ℝ), 1, (v : ℝ), (0 : ℝ), 0, 0⟩
  force _ _ := (0 : ℝ)
  dt _ := dt

theorem coast_solves {b : Builder ℝ} (hb : Reachable b) (hr : Ready b weakRobot) (x v dt : ℝ)
    (hv : |v| ≤ 10) (h0 : 0 ≤ dt) (h1 : dt ≤ 1)
    (hi : ∀ w ≤ (table b).counts.length, ∀ c ∈ (table b).instant w,
      Meaning c ((coast x v dt).state (waypointSample (table b).counts w)))
    (hc : ∀ s < (table b).counts.length, ∀ c ∈ (table b).continuous s,
      ∀ n ∈ segmentSamples (table b).counts s, Meaning c ((coast x v dt).state n)) :
    Solves b weakRobot (coast x v dt) := by
  refine (solves_iff hb hr fun m hm => by rw [(weak_radius m hm).1]; norm_num).mpr
    ⟨?_, ?_, ?_, ?_, hi, hc⟩
  · intro s hs n hn
    have hn0 : 0 < n := by
      simp only [segmentSamples, Finset.mem_Ioc] at hn
      omega
    obtain ⟨k, rfl⟩ : ∃ k, n = k + 1 := ⟨n - 1, by omega⟩
    refine ⟨?_, .inl (by simp [coast, unitVec]), by simp [coast], by simp [coast]⟩
    simp only [coast, Nat.add_sub_cancel]
    push_cast
    ring
  · intro n hn
    exact weak_dynamics _ v 0 hv (by norm_num)
  · intro s hs; exact h0
  · intro s hs m hm g hg
    rw [weak_gap g hg, (weak_radius m hm).1, (weak_radius m hm).2]
    simp only [coast]
    linarith

/-- From (-5, 0) to (5, 0) in one control interval, the origin of the robot kept 5 away from the origin
of the field. -/
noncomputable def throughOps : List (Op ℝ) :=
  [.setDrivetrain weakRobot, .poseWpt 0 (-5) 0 0, .poseWpt 1 5 0 0,
    .sgmtConstraint 0 1 (.pointPoint ⟨0, 0⟩ ⟨0, 0⟩ 5), .controlIntervalCounts [1]]

theorem through_table :
    let b := run true throughOps Builder.new
    Ready b weakRobot ∧ (table b).counts = [1] ∧
    (table b).continuous 0 = [.pointPoint ⟨0, 0⟩ ⟨0, 0⟩ 5] ∧
    (table b).instant 0 = [.poseEquality (-5) 0 0, .pointPoint ⟨0, 0⟩ ⟨0, 0⟩ 5] ∧
    (table b).instant 1 = [.poseEquality 5 0 0, .pointPoint ⟨0, 0⟩ ⟨0, 0⟩ 5] := by
  intro b
  obtain ⟨e, hr⟩ : table b = PathTable.empty.afterAll throughOps ∧ Ready b weakRobot := by
    refine ready_of ?_ _ rfl ?_ ?_ ?_ <;>
    simp [throughOps, PathTable.AcceptsAll, PathTable.Accepts, PathTable.afterAll, PathTable.after,
      PathTable.empty, PathTable.reach, PathTable.requireAt, PathTable.requireAlong, PathTable.guessAt,
      sampleCount]
  refine ⟨hr, ?_⟩
  rw [e]
  simp [throughOps, PathTable.afterAll, PathTable.after, PathTable.requireAlong,
    PathTable.empty, PathTable.reach, PathTable.requireAt, PathTable.guessAt]

theorem meaning_coast {x v dt : ℝ} (n : ℕ) :
    (∀ a, a = x + n * (v * dt) → Meaning (.poseEquality a 0 0) ((coast x v dt).state n)) ∧
    (∀ d, 0 ≤ d → d ≤ |x + n * (v * dt)| →
      Meaning (.pointPoint ⟨0, 0⟩ ⟨0, 0⟩ d) ((coast x v dt).state n)) := by
  constructor
  · rintro a rfl
    refine ⟨?_, .inl (by simp [coast, unitVec])⟩
    apply Complex.ext <;> simp [coast, vec]
  · intro d hd h
    simp only [Meaning, abs_of_nonneg hd]
    refine h.trans (le_of_eq ?_)
    have : vec (⟨0, 0⟩ : Translation2 ℝ) = 0 := rfl
    rw [State.onRobot, this, zero_mul, add_zero, Complex.dist_eq, sub_zero]
    exact (Complex.norm_real _).symm

theorem through_solves : Solves (run true throughOps Builder.new) weakRobot (coast (-5) 10 1) := by
  obtain ⟨hr, hc, hco, hi0, hi1⟩ := through_table
  refine coast_solves ⟨true, _, rfl⟩ hr (-5) 10 1 (by norm_num) zero_le_one le_rfl ?_ ?_
  · rw [hc]
    intro w hw c hcm
    simp only [List.length_cons, List.length_nil] at hw
    obtain rfl | rfl : w = 0 ∨ w = 1 := by omega
    · rw [hi0] at hcm
      simp only [List.mem_cons, List.not_mem_nil, or_false] at hcm
      rcases hcm with rfl | rfl
      · exact (meaning_coast _).1 _ (by norm_num [waypointSample])
      · exact (meaning_coast _).2 _ (by norm_num) (by norm_num [waypointSample])
    · rw [hi1] at hcm
      simp only [List.mem_cons, List.not_mem_nil, or_false] at hcm
      rcases hcm with rfl | rfl
      · exact (meaning_coast _).1 _ (by norm_num [waypointSample])
      · exact (meaning_coast _).2 _ (by norm_num) (by norm_num [waypointSample])
  · rw [hc]
    intro s hs c hcm n hn
    obtain rfl : s = 0 := by simpa using hs
    rw [hco] at hcm
    simp only [List.mem_cons, List.not_mem_nil, or_false] at hcm
    subst hcm
    simp only [segmentSamples, waypointSample, Finset.mem_Ioc, List.take, List.sum_cons, List.sum_nil] at hn
    obtain rfl : n = 1 := by omega
    exact (meaning_coast _).2 _ (by norm_num) (by norm_num)

/-- C97 is false: a robot kept 5 away from a point all along drives straight through that point, in one
control interval of the largest length the code permits. -/
theorem C97_refuted : ∃ (ops : List (Op ℝ)) (dr : SwerveDrivetrain ℝ) (T : Traj),
    PathTable.AcceptsAll true PathTable.empty ops ∧ Solves (run true ops Builder.new) dr T ∧
    (table (run true ops Builder.new)).counts = [1] ∧
    (table (run true ops Builder.new)).Requires 0 1 [.pointPoint ⟨0, 0⟩ ⟨0, 0⟩ 5] ∧
    (0 : ℂ) ∈ segment ℝ (T.state 0).pos (T.state 1).pos := by
  obtain ⟨hr, hc, hco, hi0, hi1⟩ := through_table
  refine ⟨throughOps, weakRobot, _, ?_, through_solves, hc, ⟨?_, ?_⟩, ?_⟩
  · simp [throughOps, PathTable.AcceptsAll, PathTable.Accepts]
  · rw [hi0]; simp
  · intro s h1 h2
    obtain rfl : s = 0 := by omega
    rw [hco]; simp
  · rw [segment_eq_image]
    refine ⟨1 / 2, by norm_num, ?_⟩
    apply Complex.ext <;> norm_num [coast]

/-! ### Insides -/

theorem view_onRobot {s : State} (hu : ‖s.heading‖ = 1) (r : Translation2 ℝ) :
    s.view (s.onRobot r) = vec r := by
  have h : (starRingEnd ℂ) s.heading * s.heading = 1 := by
    rw [← Complex.normSq_eq_conj_mul_self, Complex.normSq_eq_norm_sq, hu]
    norm_num
  rw [State.view, State.onRobot]
  linear_combination vec r * h

theorem dist_view {s : State} (hu : ‖s.heading‖ = 1) (z w : ℂ) : dist (s.view z) (s.view w) = dist z w := by
  rw [Complex.dist_eq, Complex.dist_eq, State.view, State.view, ← mul_sub, norm_mul, Complex.norm_conj,
    hu, one_mul]
  congr 1
  ring

/-- The robot's view as a change of coordinates. -/
noncomputable def viewHomeo (s : State) (hu : ‖s.heading‖ = 1) : ℂ ≃ₜ ℂ where
  toFun := s.view
  invFun z := s.pos + z * s.heading
  left_inv z := by
    have h : (starRingEnd ℂ) s.heading * s.heading = 1 := by
      rw [← Complex.normSq_eq_conj_mul_self, Complex.normSq_eq_norm_sq, hu]
      norm_num
    simp only [State.view]
    linear_combination (z - s.pos) * h
  right_inv z := by
    have h : (starRingEnd ℂ) s.heading * s.heading = 1 := by
      rw [← Complex.normSq_eq_conj_mul_self, Complex.normSq_eq_norm_sq, hu]
      norm_num
    simp only [State.view]
    linear_combination z * h
  continuous_toFun := by unfold State.view; fun_prop
  continuous_invFun := by fun_prop

/-- What the robot sees on an outline of its own is on that outline on the field. -/
theorem outline_of_view {s : State} (hu : ‖s.heading‖ = 1) {ps : List (Translation2 ℝ)} {w : ℂ}
    (hw : s.view w ∈ outline vec ps) : w ∈ outline s.onRobot ps := by
  have hinj : ∀ a b, s.view a = s.view b → a = b := fun a b h => (viewHomeo s hu).injective h
  rcases hw with ⟨p, hp, h⟩ | ⟨e, he, h⟩
  · exact .inl ⟨p, hp, hinj _ _ (by rw [h, view_onRobot hu])⟩
  · refine .inr ⟨e, he, ?_⟩
    rw [segment_eq_image] at h ⊢
    obtain ⟨t, ht, h⟩ := h
    refine ⟨t, ht, hinj _ _ ?_⟩
    rw [← h, ← view_onRobot hu e.1, ← view_onRobot hu e.2]
    simp only [State.view, Complex.real_smul]
    push_cast
    ring

theorem frontier_view {s : State} (hu : ‖s.heading‖ = 1) (R : Set ℂ) :
    frontier (s.view ⁻¹' R) = s.view ⁻¹' frontier R :=
  ((viewHomeo s hu).preimage_frontier R).symm

theorem unitVec_dist (a b : ℝ) : ‖unitVec a - unitVec b‖ ≤ |a - b| := by
  have h : unitVec a - unitVec b = unitVec b * (Complex.exp (Complex.I * (a - b : ℝ)) - 1) := by
    rw [mul_sub, mul_one, unitVec, unitVec, ← Complex.exp_add]
    congr 2
    push_cast
    ring
  rw [h, norm_mul, unitVec, Complex.norm_exp_ofReal_mul_I, one_mul]
  exact Real.norm_exp_I_mul_ofReal_sub_one_le

/-- The field position of what the robot has at `w`. -/
theorem outline_at {s : State} {ps : List (Translation2 ℝ)} {w : ℂ} (hw : w ∈ outline vec ps) :
    s.pos + w * s.heading ∈ outline s.onRobot ps := by
  rcases hw with ⟨p, hp, rfl⟩ | ⟨e, he, h⟩
  · exact .inl ⟨p, hp, rfl⟩
  · refine .inr ⟨e, he, ?_⟩
    rw [segment_eq_image] at h ⊢
    obtain ⟨t, ht, rfl⟩ := h
    refine ⟨t, ht, ?_⟩
    simp only [State.onRobot, Complex.real_smul]
    push_cast
    ring

theorem outline_reach {ps : List (Translation2 ℝ)} {D k S : ℝ} (hk : 0 ≤ k)
    (h : ∀ p ∈ ps, D + ‖vec p‖ * k ≤ S) {w : ℂ} (hw : w ∈ outline vec ps) : D + ‖w‖ * k ≤ S := by
  rcases hw with ⟨p, hp, rfl⟩ | ⟨e, he, hw⟩
  · exact h p hp
  · obtain ⟨e1, e2⟩ := edges_ends he
    rw [segment_eq_image] at hw
    obtain ⟨t, ⟨t0, t1⟩, rfl⟩ := hw
    have hn : ‖(1 - t) • vec e.1 + t • vec e.2‖ ≤ (1 - t) * ‖vec e.1‖ + t * ‖vec e.2‖ := by
      refine (norm_add_le _ _).trans ?_
      rw [norm_smul, norm_smul, Real.norm_of_nonneg t0, Real.norm_of_nonneg (by linarith)]
    have := mul_le_mul_of_nonneg_right hn hk
    nlinarith [mul_le_mul_of_nonneg_left (h _ e1) (sub_nonneg.mpr t1), mul_le_mul_of_nonneg_left (h _ e2) t0]

/-- A corner of the robot moves at most as far as the robot, plus what turning adds. -/
theorem onRobot_turn {s s' : State} (hu : ‖s.heading‖ = 1) {θ : ℝ}
    (hθ : s'.heading = s.heading * unitVec θ) (p : Translation2 ℝ) :
    dist (s.onRobot p) (s'.onRobot p) ≤ ‖s'.pos - s.pos‖ + ‖vec p‖ * |θ| := by
  rw [dist_comm, Complex.dist_eq, State.onRobot, State.onRobot, hθ]
  have e : s'.pos + vec p * (s.heading * unitVec θ) - (s.pos + vec p * s.heading) =
      (s'.pos - s.pos) + vec p * (s.heading * (unitVec θ - unitVec 0)) := by
    rw [show unitVec 0 = 1 by simp [unitVec]]
    ring
  rw [e]
  refine (norm_add_le _ _).trans ?_
  rw [norm_mul, norm_mul, hu, one_mul]
  have := mul_le_mul_of_nonneg_left (unitVec_dist θ 0) (norm_nonneg (vec p))
  rw [sub_zero] at this
  linarith

/-- C98, sample by sample: outlines `e` apart at two samples, insides apart at the first, a robot whose
corners move less than `2 e`, turning included: insides apart at the second. -/
theorem insides_step {s s' : State} (hu : ‖s.heading‖ = 1) {θ : ℝ}
    (hθ : s'.heading = s.heading * unitVec θ)
    {ps qs : List (Translation2 ℝ)} {p q : Translation2 ℝ} (hp : p ∈ ps) (hq : q ∈ qs) {R O : Set ℂ}
    (hR : Fills ps R) (hO : Fills qs O) {e S : ℝ}
    (h : ∀ z ∈ outline s.onRobot ps, ∀ w ∈ outline vec qs, e ≤ dist z w)
    (h' : ∀ z ∈ outline s'.onRobot ps, ∀ w ∈ outline vec qs, e ≤ dist z w)
    (hm : ∀ p ∈ ps, ‖s'.pos - s.pos‖ + ‖vec p‖ * |θ| ≤ S) (hS : S < 2 * e)
    (hdis : Disjoint (s.view ⁻¹' R) O) : Disjoint (s'.view ⁻¹' R) O := by
  have hunit : ∀ a, ‖unitVec a‖ = 1 := fun a => by rw [unitVec, Complex.norm_exp_ofReal_mul_I]
  have hu' : ‖s'.heading‖ = 1 := by rw [hθ, norm_mul, hu, hunit, one_mul]
  have he : 0 < e := by
    have := hm p hp
    have : 0 ≤ ‖s'.pos - s.pos‖ + ‖vec p‖ * |θ| := by positivity
    linarith
  have hqo : vec q ∈ outline vec qs := .inl ⟨q, hq, rfl⟩
  -- the obstacle's corner stays out of the robot
  have hqR : s'.view (vec q) ∉ R := by
    intro hin
    -- the robot on its way, turning evenly
    let st : ℝ → State := fun t => ⟨s.pos + t * (s'.pos - s.pos), s.heading * unitVec (t * θ), 0, 0, 0, 0⟩
    have hst : ∀ t, ‖(st t).heading‖ = 1 := fun t => by
      change ‖s.heading * unitVec (t * θ)‖ = 1
      rw [norm_mul, hu, hunit, one_mul]
    have h0 : (st 0).view (vec q) = s.view (vec q) := by
      simp [st, State.view, unitVec]
    have h1 : (st 1).view (vec q) = s'.view (vec q) := by
      simp [st, State.view, hθ]
    have hcont : Continuous fun t : ℝ => (st t).view (vec q) := by
      simp only [st, State.view, unitVec]
      fun_prop
    have hpre : IsPreconnected ((fun t : ℝ => (st t).view (vec q)) '' Set.Icc 0 1) :=
      isPreconnected_Icc.image _ hcont.continuousOn
    obtain ⟨w, ⟨t, ⟨t0, t1⟩, hw⟩, hwf⟩ := meets_frontier hpre (R := R)
      (x := s'.view (vec q)) ⟨1, by simp, h1⟩ hin (y := s.view (vec q)) ⟨0, by simp, h0⟩
      (fun hin0 => Set.disjoint_left.mp hdis hin0 (hO.corners q hq))
    have hwo := hR.border hwf
    have hq' : vec q = (st t).pos + w * (st t).heading :=
      ((viewHomeo (st t) (hst t)).left_inv (vec q)).symm.trans (by
        change (st t).pos + (st t).view (vec q) * (st t).heading = _
        rw [← hw])
    have hreach := outline_reach (abs_nonneg θ) hm hwo
    have a1 := h _ (outline_at (s := s) hwo) _ hqo
    have a2 := h' _ (outline_at (s := s') hwo) _ hqo
    have b1 : dist (s.pos + w * s.heading) (vec q) ≤ t * S := by
      rw [hq', dist_comm, Complex.dist_eq]
      have e1 : (st t).pos + w * (st t).heading - (s.pos + w * s.heading) =
          t * (s'.pos - s.pos) + w * (s.heading * (unitVec (t * θ) - unitVec 0)) := by
        rw [show unitVec 0 = 1 by simp [unitVec]]
        simp only [st]
        ring
      rw [e1]
      refine (norm_add_le _ _).trans ?_
      rw [norm_mul, norm_mul, norm_mul, hu, one_mul, Complex.norm_real, Real.norm_of_nonneg t0]
      have := mul_le_mul_of_nonneg_left (unitVec_dist (t * θ) 0) (norm_nonneg w)
      rw [sub_zero, abs_mul, abs_of_nonneg t0] at this
      nlinarith
    have b2 : dist (s'.pos + w * s'.heading) (vec q) ≤ (1 - t) * S := by
      rw [hq', Complex.dist_eq]
      have e1 : s'.pos + w * s'.heading - ((st t).pos + w * (st t).heading) =
          (1 - t : ℝ) * (s'.pos - s.pos) + w * (s.heading * (unitVec θ - unitVec (t * θ))) := by
        simp only [st, hθ]
        push_cast
        ring
      rw [e1]
      refine (norm_add_le _ _).trans ?_
      rw [norm_mul, norm_mul, norm_mul, hu, one_mul, Complex.norm_real, Real.norm_of_nonneg (by linarith)]
      have := mul_le_mul_of_nonneg_left (unitVec_dist θ (t * θ)) (norm_nonneg w)
      rw [show θ - t * θ = (1 - t) * θ by ring, abs_mul, abs_of_nonneg (by linarith : 0 ≤ 1 - t)] at this
      nlinarith
    nlinarith
  -- the robot's corner stays out of the obstacle
  have hpO : s'.onRobot p ∉ O := by
    refine stays_outside (x := s.onRobot p) ?_ (((onRobot_turn hu hθ p).trans (hm p hp)).trans_lt hS)
      (fun w hw => h _ (.inl ⟨p, hp, rfl⟩) _ (hO.border hw))
      (fun w hw => h' _ (.inl ⟨p, hp, rfl⟩) _ (hO.border hw))
    intro hin
    refine Set.disjoint_left.mp hdis ?_ hin
    change s.view (s.onRobot p) ∈ R
    rw [view_onRobot hu]
    exact hR.corners p hp
  rw [Set.disjoint_left]
  intro z hzR hzO
  obtain ⟨w, hwO, hw⟩ := meets_frontier hO.connected hzO hzR (hO.corners q hq) hqR
  rw [frontier_view hu'] at hw
  have hwo := outline_of_view hu' (hR.border hw)
  obtain ⟨x, hx, hxf⟩ := meets_frontier (preconnected_outline s'.onRobot ps) hwo hwO
    (.inl ⟨p, hp, rfl⟩) hpO
  have := h' x hx x (hO.border hxf)
  rw [dist_self] at this
  linarith

/-- C98 if, per control interval, every bumper corner moves less than twice the clearance, counting the
robot's move and its turn (by `θ n`): robot and obstacle, insides included, that are disjoint at the first
sample are disjoint at all.  Missing: longer steps, see `C98_refuted`. -/
theorem C98_outside_partial (b : Builder ℝ) (dr : SwerveDrivetrain ℝ) (T : Traj) (h : Solves b dr T)
    (obs bum : Obstacle ℝ) (hobs : obs.points ≠ []) (hbum : bum.points ≠ []) (i j : ℕ) (hij : i ≤ j)
    (hj : j ≤ (table b).counts.length) (hreq : (table b).Requires i j (keepOuts obs bum))
    (d e s : ℝ) (hd : d = bum.safetyDistance + obs.safetyDistance) (hd0 : 0 ≤ d)
    (he : e = min d (Real.sqrt d)) (first last : ℕ) (hf : first = waypointSample (table b).counts i)
    (hl : last = waypointSample (table b).counts j)
    (hu : ‖(T.state first).heading‖ = 1) (θ : ℕ → ℝ)
    (hθ : ∀ n, first ≤ n → n < last → (T.state (n + 1)).heading = (T.state n).heading * unitVec (θ n))
    (hs : ∀ n, first ≤ n → n < last → ∀ p ∈ bum.points,
      ‖(T.state (n + 1)).pos - (T.state n).pos‖ + ‖vec p‖ * |θ n| ≤ s)
    (hse : s < 2 * e) (hno : NoCrossing (T.state first).onRobot vec bum.points obs.points)
    (R O : Set ℂ) (hR : Fills bum.points R) (hO : Fills obs.points O)
    (hdis : Disjoint ((T.state first).view ⁻¹' R) O) :
    ∀ n, first ≤ n → n ≤ last → Disjoint ((T.state n).view ⁻¹' R) O := by
  obtain ⟨p, hp⟩ := List.exists_mem_of_ne_nil _ hbum
  obtain ⟨q, hq⟩ := List.exists_mem_of_ne_nil _ hobs
  have hun : ∀ k, first + k ≤ last → ‖(T.state (first + k)).heading‖ = 1 := by
    intro k
    induction k with
    | zero => intro _; exact hu
    | succ k ih =>
      intro hk
      rw [← Nat.add_assoc, hθ (first + k) (by omega) (by omega), norm_mul, ih (by omega), one_mul, unitVec,
        Complex.norm_exp_ofReal_mul_I]
  have hap := (C97_apart_partial b dr T h obs bum hobs hbum i j hij hj hreq d e s hd hd0 he first last hf
    hl (fun n h1 h2 p hp => by
      obtain ⟨k, rfl⟩ := Nat.exists_eq_add_of_le h1
      exact (onRobot_turn (hun k h2.le) (hθ _ h1 h2) p).trans (hs _ h1 h2 p hp)) hse hno).1
  intro n h1
  obtain ⟨k, rfl⟩ := Nat.exists_eq_add_of_le h1
  clear h1
  induction k with
  | zero => intro _; exact hdis
  | succ k ih =>
    intro h2
    exact insides_step (hun k (by omega)) (hθ (first + k) (by omega) (by omega)) hp hq hR
      hO (hap _ (by omega) (by omega)) (hap (first + k + 1) (by omega) (by omega))
      (hs (first + k) (by omega) (by omega)) hse (ih (by omega))

/-- C98 for robots that do not turn and whose modules, listed one after the other, have a gap less than
twice the clearance. -/
theorem C98_translating_partial (b : Builder ℝ) (dr : SwerveDrivetrain ℝ) (T : Traj) (h : Solves b dr T)
    (obs bum : Obstacle ℝ) (hobs : obs.points ≠ []) (hbum : bum.points ≠ []) (i j : ℕ) (hij : i ≤ j)
    (hj : j ≤ (table b).counts.length) (hreq : (table b).Requires i j (keepOuts obs bum))
    (d e : ℝ) (hd : d = bum.safetyDistance + obs.safetyDistance) (hd0 : 0 ≤ d)
    (he : e = min d (Real.sqrt d)) (first last : ℕ) (hf : first = waypointSample (table b).counts i)
    (hl : last = waypointSample (table b).counts j)
    (hcentre : (dr.modules.map fun m => vec m.translation).sum = 0)
    (hpos : ∀ m ∈ dr.modules, 0 ≤ m.wheelRadius * m.wheelMaxAngularVelocity)
    (k : ℕ) (hk : k + 1 < dr.modules.length) (g : ℝ) (hg0 : g ≠ 0)
    (hg : g = |dr.modules[k].translation.x - dr.modules[k + 1].translation.x| ∨
      g = |dr.modules[k].translation.y - dr.modules[k + 1].translation.y|)
    (u : ℂ) (hu : ‖u‖ = 1) (hturn : ∀ n, first ≤ n → n ≤ last → (T.state n).heading = u)
    (hge : g < 2 * e) (hno : NoCrossing (T.state first).onRobot vec bum.points obs.points)
    (R O : Set ℂ) (hR : Fills bum.points R) (hO : Fills obs.points O)
    (hdis : Disjoint ((T.state first).view ⁻¹' R) O) :
    ∀ n, first ≤ n → n ≤ last → Disjoint ((T.state n).view ⁻¹' R) O := by
  intro n h1 h2
  have hstep : ∀ n, first ≤ n → n < last → ‖(T.state (n + 1)).pos - (T.state n).pos‖ ≤ g := by
    intro n h1 h2
    have hlast := waypointSample_lt (table b).counts j
    exact C38_step b dr T h n (by omega) (by rw [hturn (n + 1) (by omega) h2, hu]) hcentre hpos k hk g hg0 hg
  refine C98_outside_partial b dr T h obs bum hobs hbum i j hij hj hreq d e g hd hd0 he first last hf hl
    (by rw [hturn first le_rfl (h1.trans h2), hu]) (fun _ => 0) (fun n h1 h2 => ?_) (fun n h1 h2 p _ => ?_)
    hge hno R O hR hO hdis n h1 h2
  · rw [hturn n h1 h2.le, hturn (n + 1) (by omega) h2]
    simp [unitVec]
  · simpa using hstep n h1 h2

/-- How far a robot turns in one control interval, if every module is at least `ρ` away from its origin:
not more than a gap between modules, divided by `ρ`. -/
theorem turn_cap {b : Builder ℝ} {dr : SwerveDrivetrain ℝ} {T : Traj} (h : Solves b dr T) {s n : ℕ}
    (hs : s < (table b).counts.length) (hn : n < sampleCount (table b).counts)
    (hcentre : (dr.modules.map fun m => vec m.translation).sum = 0)
    (hpos : ∀ m ∈ dr.modules, 0 ≤ m.wheelRadius * m.wheelMaxAngularVelocity) {g : ℝ} (hg : Gap dr g)
    {ρ : ℝ} (hρ : 0 < ρ) (hfar : ∀ m ∈ dr.modules, ρ ≤ ‖vec m.translation‖) :
    |(T.state n).omega * T.dt s| ≤ g / ρ := by
  have hdt := h.obeys.time s hs
  have hspeed := (h.obeys.dynamics n hn).speed
  set v := (starRingEnd ℂ) (T.state n).heading * (T.state n).vel with hv
  set ω := (T.state n).omega with hω
  -- the part of the wheels' velocities that turns the robot
  have hsum : ∀ l : List (SwerveModule ℝ),
      (l.map fun m => wheelVelocity (T.state n) m * (starRingEnd ℂ) (Complex.I * vec m.translation)).sum =
        -v * Complex.I * (starRingEnd ℂ) (l.map fun m => vec m.translation).sum +
          ω * ((l.map fun m => ‖vec m.translation‖ ^ 2).sum : ℝ) := by
    intro l
    induction l with
    | nil => simp
    | cons a l ih =>
      rw [List.map_cons, List.sum_cons, ih, List.map_cons, List.sum_cons, List.map_cons, List.sum_cons]
      have hsq : vec a.translation * (starRingEnd ℂ) (vec a.translation) =
          ((‖vec a.translation‖ ^ 2 : ℝ) : ℂ) := by
        rw [Complex.mul_conj, Complex.normSq_eq_norm_sq]
      have hw : wheelVelocity (T.state n) a = v + Complex.I * ω * vec a.translation := rfl
      rw [hw, map_mul, Complex.conj_I, map_add, Complex.ofReal_add]
      linear_combination (ω : ℂ) * hsq - ω * vec a.translation * (starRingEnd ℂ) (vec a.translation) *
        Complex.I_sq
  have hmain := hsum dr.modules
  rw [hcentre, map_zero, mul_zero, zero_add] at hmain
  have hbound : ∀ l : List (SwerveModule ℝ), (∀ m ∈ l, m ∈ dr.modules) →
      T.dt s * ‖(l.map fun m => wheelVelocity (T.state n) m *
        (starRingEnd ℂ) (Complex.I * vec m.translation)).sum‖ ≤
      g * (l.map fun m => ‖vec m.translation‖).sum := by
    intro l
    induction l with
    | nil => simp
    | cons a l ih =>
      intro hl
      rw [List.map_cons, List.sum_cons, List.map_cons, List.sum_cons, mul_add]
      have ha := hl a (List.mem_cons_self ..)
      have h1 := ih fun m hm => hl m (List.mem_cons_of_mem _ hm)
      have h2 : T.dt s * ‖wheelVelocity (T.state n) a *
          (starRingEnd ℂ) (Complex.I * vec a.translation)‖ ≤ g * ‖vec a.translation‖ := by
        rw [norm_mul, Complex.norm_conj, norm_mul, Complex.norm_I, one_mul, ← mul_assoc]
        refine mul_le_mul_of_nonneg_right ?_ (norm_nonneg _)
        have := h.obeys.stepCap s hs a ha g hg
        refine (mul_le_mul_of_nonneg_left (hspeed a ha) hdt).trans ?_
        rw [maxSpeed, abs_of_nonneg (hpos a ha), ← mul_assoc]
        exact this
      have h3 := mul_le_mul_of_nonneg_left (norm_add_le (wheelVelocity (T.state n) a *
        (starRingEnd ℂ) (Complex.I * vec a.translation)) (l.map fun m => wheelVelocity (T.state n) m *
        (starRingEnd ℂ) (Complex.I * vec m.translation)).sum) hdt
      linarith
  have hB := hbound dr.modules fun _ => id
  rw [hmain, norm_mul, Complex.norm_real, Complex.norm_real] at hB
  have hsq0 : ∀ l : List (SwerveModule ℝ), (∀ m ∈ l, m ∈ dr.modules) →
      ρ * (l.map fun m => ‖vec m.translation‖).sum ≤ (l.map fun m => ‖vec m.translation‖ ^ 2).sum ∧
      0 ≤ (l.map fun m => ‖vec m.translation‖).sum := by
    intro l
    induction l with
    | nil => simp
    | cons a l ih =>
      intro hl
      rw [List.map_cons, List.sum_cons, List.map_cons, List.sum_cons]
      obtain ⟨h1, h2⟩ := ih fun m hm => hl m (List.mem_cons_of_mem _ hm)
      have h3 := hfar a (hl a (List.mem_cons_self ..))
      refine ⟨?_, add_nonneg (norm_nonneg _) h2⟩
      nlinarith [norm_nonneg (vec a.translation)]
  obtain ⟨hS, hS0⟩ := hsq0 dr.modules fun _ => id
  set S := (dr.modules.map fun m => ‖vec m.translation‖).sum with hSd
  have hSpos : 0 < S := by
    obtain ⟨-, a, b', hab, -⟩ := hg
    have ha := (List.of_mem_zip hab).1
    have : ‖vec a.translation‖ ≤ S := by
      rw [hSd]
      exact List.single_le_sum (fun x hx => by
        obtain ⟨m, -, rfl⟩ := List.mem_map.mp hx
        exact norm_nonneg _) _ (List.mem_map.mpr ⟨a, ha, rfl⟩)
    linarith [hfar a ha]
  rw [Real.norm_eq_abs, Real.norm_of_nonneg (le_trans (mul_nonneg hρ.le hS0) hS)] at hB
  rw [abs_mul, abs_of_nonneg hdt, le_div_iff₀ hρ]
  have h4 : T.dt s * (|ω| * (ρ * S)) ≤ g * S :=
    (mul_le_mul_of_nonneg_left (mul_le_mul_of_nonneg_left hS (abs_nonneg _)) hdt).trans hB
  have h5 : (|ω| * T.dt s * ρ) * S ≤ g * S := by linarith [h4]
  exact le_of_mul_le_mul_right h5 hSpos

/-- C98 for robots that turn: with all modules at least `ρ` and all bumper corners at most `r` away from
the robot's origin, and headings that do not flip, it is enough that `g (1 + r / ρ)` is less than twice the
clearance, `g` being a gap between modules listed one after the other. -/
theorem C98_turning_partial (b : Builder ℝ) (dr : SwerveDrivetrain ℝ) (T : Traj) (h : Solves b dr T)
    (obs bum : Obstacle ℝ) (hobs : obs.points ≠ []) (hbum : bum.points ≠ []) (i j : ℕ) (hij : i ≤ j)
    (hj : j ≤ (table b).counts.length) (hreq : (table b).Requires i j (keepOuts obs bum))
    (d e : ℝ) (hd : d = bum.safetyDistance + obs.safetyDistance) (hd0 : 0 ≤ d)
    (he : e = min d (Real.sqrt d)) (first last : ℕ) (hf : first = waypointSample (table b).counts i)
    (hl : last = waypointSample (table b).counts j)
    (hcentre : (dr.modules.map fun m => vec m.translation).sum = 0)
    (hpos : ∀ m ∈ dr.modules, 0 ≤ m.wheelRadius * m.wheelMaxAngularVelocity)
    (k : ℕ) (hk : k + 1 < dr.modules.length) (g : ℝ) (hg0 : g ≠ 0)
    (hg : g = |dr.modules[k].translation.x - dr.modules[k + 1].translation.x| ∨
      g = |dr.modules[k].translation.y - dr.modules[k + 1].translation.y|)
    (ρ r : ℝ) (hρ : 0 < ρ) (hfar : ∀ m ∈ dr.modules, ρ ≤ ‖vec m.translation‖)
    (hr : ∀ p ∈ bum.points, ‖vec p‖ ≤ r) (hu : ‖(T.state first).heading‖ = 1)
    (hflip : ∀ s < (table b).counts.length, ∀ n ∈ segmentSamples (table b).counts s,
      (T.state n).heading * (starRingEnd ℂ) (T.state (n - 1)).heading =
        unitVec ((T.state n).omega * T.dt s))
    (hge : g * (1 + r / ρ) < 2 * e) (hno : NoCrossing (T.state first).onRobot vec bum.points obs.points)
    (R O : Set ℂ) (hR : Fills bum.points R) (hO : Fills obs.points O)
    (hdis : Disjoint ((T.state first).view ⁻¹' R) O) :
    ∀ n, first ≤ n → n ≤ last → Disjoint ((T.state n).view ⁻¹' R) O := by
  have hlast := waypointSample_lt (table b).counts j
  have hgap : Gap dr g := by
    refine ⟨hg0, dr.modules[k], dr.modules[k + 1], ?_, hg⟩
    rw [List.mem_iff_getElem]
    refine ⟨k, by simp; omega, by simp⟩
  have hgpos : 0 ≤ g := by rcases hg with rfl | rfl <;> exact abs_nonneg _
  have hone : ∀ n, first ≤ n → n < last → ∃ θ : ℝ, |θ| ≤ g / ρ ∧ (‖(T.state n).heading‖ = 1 →
      (T.state (n + 1)).heading = (T.state n).heading * unitVec θ) := by
    intro n h1 h2
    obtain ⟨s, hs, hns⟩ := segment_of_sample (n := n + 1) (N := (table b).counts) (by omega) (by omega)
    refine ⟨(T.state (n + 1)).omega * T.dt s, turn_cap h hs (by omega) hcentre hpos hgap hρ hfar, ?_⟩
    intro hun
    have := hflip s hs _ hns
    rw [Nat.add_sub_cancel] at this
    have hc : (starRingEnd ℂ) (T.state n).heading * (T.state n).heading = 1 := by
      rw [← Complex.normSq_eq_conj_mul_self, Complex.normSq_eq_norm_sq, hun]
      norm_num
    linear_combination (T.state n).heading * this - (T.state (n + 1)).heading * hc
  choose! θ hθ1 hθ2 using hone
  have hun : ∀ k, first + k ≤ last → ‖(T.state (first + k)).heading‖ = 1 := by
    intro k
    induction k with
    | zero => intro _; exact hu
    | succ k ih =>
      intro hk
      rw [← Nat.add_assoc, hθ2 (first + k) (by omega) (by omega) (ih (by omega)), norm_mul, ih (by omega),
        one_mul, unitVec, Complex.norm_exp_ofReal_mul_I]
  have hun' : ∀ n, first ≤ n → n ≤ last → ‖(T.state n).heading‖ = 1 := by
    intro n h1 h2
    obtain ⟨k, rfl⟩ := Nat.exists_eq_add_of_le h1
    exact hun k h2
  refine C98_outside_partial b dr T h obs bum hobs hbum i j hij hj hreq d e (g * (1 + r / ρ)) hd hd0 he
    first last hf hl hu θ (fun n h1 h2 => hθ2 n h1 h2 (hun' n h1 h2.le)) (fun n h1 h2 p hp => ?_) hge hno R O
    hR hO hdis
  have hstep := C38_step b dr T h n (by omega) (hun' (n + 1) (by omega) h2) hcentre hpos k hk g hg0 hg
  have h3 : ‖vec p‖ * |θ n| ≤ r * (g / ρ) :=
    mul_le_mul (hr p hp) (hθ1 n h1 h2) (abs_nonneg _) ((norm_nonneg _).trans (hr p hp))
  calc _ ≤ g + r * (g / ρ) := add_le_add hstep h3
    _ = g * (1 + r / ρ) := by ring

/-! ### Driving over an obstacle, and driving past one -/

/-- Bumpers of 12 by 12. -/
noncomputable def bigBumpers : Obstacle ℝ := ⟨1, [⟨6, 6⟩, ⟨-6, 6⟩, ⟨-6, -6⟩, ⟨6, -6⟩]⟩

/-- A round obstacle. -/
noncomputable def pillar (r y : ℝ) : Obstacle ℝ := ⟨r, [⟨0, y⟩]⟩

/-- From (-9, 0) to (9, 0) in two control intervals, with a round obstacle of radius `r` at `(0, y)`. -/
noncomputable def passOps (r y : ℝ) : List (Op ℝ) :=
  [.setDrivetrain weakRobot, .addBumpers bigBumpers, .poseWpt 0 (-9) 0 0, .poseWpt 1 9 0 0,
    .sgmtObstacle 0 1 (pillar r y), .controlIntervalCounts [2]]

theorem pass_accepts {r y : ℝ} (hr : 0 ≤ r) : PathTable.AcceptsAll true PathTable.empty (passOps r y) := by
  have : 0 ≤ 1 + r := by linarith
  simp [passOps, PathTable.AcceptsAll, PathTable.Accepts, PathTable.after, PathTable.Suits,
    PathTable.empty, PathTable.reach, PathTable.requireAt, PathTable.guessAt, bigBumpers, pillar, this]

theorem pass_table {r y : ℝ} (hr0 : 0 ≤ r) :
    let b := run true (passOps r y) Builder.new
    Ready b weakRobot ∧ (table b).counts = [2] ∧
    (table b).continuous 0 = keepOuts (pillar r y) bigBumpers ∧
    (table b).instant 0 = .poseEquality (-9) 0 0 :: keepOuts (pillar r y) bigBumpers ∧
    (table b).instant 1 = .poseEquality 9 0 0 :: keepOuts (pillar r y) bigBumpers := by
  intro b
  have hk : keepOuts (pillar r y) bigBumpers ≠ [] := by
    simp [keepOuts, bigBumpers, pillar, edges]
  obtain ⟨e, hr⟩ : table b = PathTable.empty.afterAll (passOps r y) ∧ Ready b weakRobot := by
    refine ready_of (pass_accepts hr0) _ rfl ?_ ?_ ?_ <;>
    simp [passOps, PathTable.afterAll, PathTable.after,
      PathTable.empty, PathTable.reach, PathTable.requireAt, PathTable.requireAllAlong, PathTable.guessAt,
      sampleCount, hk]
  refine ⟨hr, ?_⟩
  rw [e]
  simp [passOps, PathTable.afterAll, PathTable.after, PathTable.requireAllAlong,
    PathTable.empty, PathTable.reach, PathTable.requireAt, PathTable.guessAt, hk]

/-- Far from the obstacle sideways or lengthwise, all keep-outs hold. -/
theorem pass_meaning {r y x D v : ℝ} (hr : 0 ≤ r) (hD : 1 + r ≤ D) (hD2 : 1 + r ≤ D ^ 2)
    (hx : D ≤ |y - 6| ∧ D ≤ |y + 6| ∧ ((D ≤ |x - 6| ∧ D ≤ |x + 6|) ∨ D ≤ |y| - 6)) :
    ∀ c ∈ keepOuts (pillar r y) bigBumpers, Meaning c ⟨(x : ℝ), 1, (v : ℝ), (0 : ℝ), 0, 0⟩ := by
  obtain ⟨h1, h2, h3⟩ := hx
  have hD0 : 0 ≤ D := by linarith
  have hc : |1 + r| = 1 + r := abs_of_nonneg (by linarith)
  have hside : ∀ z : ℂ, |z.im| ≤ 6 → D ≤ |y| - 6 → D ≤ dist z (vec ⟨0, y⟩) := by
    intro z hz h
    refine le_dist_of_im ?_
    have := abs_sub_abs_le_abs_sub y z.im
    rw [abs_sub_comm] at this
    simp only [vec]
    linarith
  have hor : ∀ z : ℂ, z.im = 6 ∨ z.im = -6 → D ≤ dist z (vec ⟨0, y⟩) := by
    rintro z (h | h)
    · refine le_dist_of_im ?_
      rw [h, abs_sub_comm]; exact h1
    · refine le_dist_of_im ?_
      rw [h, abs_sub_comm, sub_neg_eq_add]; exact h2
  have ver : ∀ z : ℂ, |z.im| ≤ 6 → z.re = x - 6 ∨ z.re = x + 6 → D ≤ dist z (vec ⟨0, y⟩) := by
    intro z hz hre
    rcases h3 with ⟨h3, h4⟩ | h3
    · refine le_dist_of_re ?_
      rcases hre with h | h <;> rw [h] <;> simpa [vec]
    · exact hside z hz h3
  have sq : ∀ z : ℂ, D ≤ dist z (vec ⟨0, y⟩) → 1 + r ≤ dist z (vec ⟨0, y⟩) ^ 2 := fun z h =>
    hD2.trans (pow_le_pow_left₀ hD0 h 2)
  have hon : ∀ a b : ℝ, State.onRobot ⟨(x : ℝ), 1, (v : ℝ), (0 : ℝ), 0, 0⟩ ⟨a, b⟩ = ⟨x + a, b⟩ := by
    intro a b
    apply Complex.ext <;> simp [State.onRobot, vec]
  intro c hcm
  simp only [keepOuts, edges, pillar, bigBumpers, List.flatMap_cons, List.flatMap_nil, List.map_cons,
    List.map_nil, List.append_nil, List.cons_append, List.nil_append, List.zip_cons_cons,
    List.zip_nil_right, List.mem_cons, List.not_mem_nil, or_false, List.getLast_cons_cons,
    List.getLast_singleton] at hcm
  rcases hcm with rfl | rfl | rfl | rfl | rfl | rfl | rfl | rfl
  · refine ⟨by rw [hon, hon]; intro h; have := congrArg Complex.re h; simp at this; linarith, fun q hq => ?_⟩
    rw [hon, hon] at hq
    obtain ⟨t, t0, t1, hre, him⟩ := mem_seg hq
    rw [hc]
    exact sq _ (hor q (.inl (by rw [him]; simp)))
  · refine ⟨by rw [hon, hon]; intro h; have := congrArg Complex.im h; simp at this; linarith, fun q hq => ?_⟩
    rw [hon, hon] at hq
    obtain ⟨t, t0, t1, hre, him⟩ := mem_seg hq
    rw [hc]
    exact sq _ (ver q (by rw [him, abs_le]; constructor <;> simp <;> linarith) (.inl (by rw [hre]; simp; ring)))
  · refine ⟨by rw [hon, hon]; intro h; have := congrArg Complex.re h; simp at this; linarith, fun q hq => ?_⟩
    rw [hon, hon] at hq
    obtain ⟨t, t0, t1, hre, him⟩ := mem_seg hq
    rw [hc]
    exact sq _ (hor q (.inr (by rw [him]; simp)))
  · refine ⟨by rw [hon, hon]; intro h; have := congrArg Complex.im h; simp at this; linarith, fun q hq => ?_⟩
    rw [hon, hon] at hq
    obtain ⟨t, t0, t1, hre, him⟩ := mem_seg hq
    rw [hc]
    exact sq _ (ver q (by rw [him, abs_le]; constructor <;> simp <;> linarith) (.inr (by rw [hre]; simp)))
  all_goals
    simp only [Meaning, hc, hon]
    refine hD.trans (hor _ ?_)
    simp

theorem pass_solves {r y D : ℝ} (hr : 0 ≤ r) (hD : 1 + r ≤ D) (hD2 : 1 + r ≤ D ^ 2)
    (hy : D ≤ |y - 6| ∧ D ≤ |y + 6| ∧ (D ≤ 3 ∨ D ≤ |y| - 6)) :
    Solves (run true (passOps r y) Builder.new) weakRobot (coast (-9) 9 1) := by
  obtain ⟨hR, hc, hco, hi0, hi1⟩ := pass_table (y := y) hr
  have hm : ∀ n ≤ 2, ∀ c ∈ keepOuts (pillar r y) bigBumpers, Meaning c ((coast (-9) 9 1).state n) := by
    intro n hn
    refine pass_meaning hr hD hD2 ⟨hy.1, hy.2.1, ?_⟩
    rcases hy.2.2 with h | h
    · left
      obtain rfl | rfl | rfl : n = 0 ∨ n = 1 ∨ n = 2 := by omega
      all_goals
        constructor
        all_goals
          refine h.trans ?_
          norm_num [le_abs]
    · exact .inr h
  refine coast_solves ⟨true, _, rfl⟩ hR (-9) 9 1 (by norm_num) zero_le_one le_rfl ?_ ?_
  · rw [hc]
    intro w hw c hcm
    simp only [List.length_cons, List.length_nil] at hw
    obtain rfl | rfl : w = 0 ∨ w = 1 := by omega
    · rw [hi0] at hcm
      rcases List.mem_cons.mp hcm with rfl | hcm
      · exact (meaning_coast _).1 _ (by norm_num [waypointSample])
      · exact hm _ (by simp [waypointSample]) c hcm
    · rw [hi1] at hcm
      rcases List.mem_cons.mp hcm with rfl | hcm
      · exact (meaning_coast _).1 _ (by norm_num [waypointSample])
      · exact hm _ (by simp [waypointSample]) c hcm
  · rw [hc]
    intro s hs c hcm n hn
    obtain rfl : s = 0 := by simpa using hs
    rw [hco] at hcm
    simp only [segmentSamples, waypointSample, Finset.mem_Ioc, List.take, List.sum_cons, List.sum_nil] at hn
    exact hm n (by omega) c hcm

/-- The inside of the bumpers. -/
def bigBumpersInside : Set ℂ := Set.Icc (-6 : ℝ) 6 ×ℂ Set.Icc (-6 : ℝ) 6

theorem seg_of_coords {a b z : ℂ} (t : ℝ) (h0 : 0 ≤ t) (h1 : t ≤ 1)
    (hre : z.re = a.re + t * (b.re - a.re)) (him : z.im = a.im + t * (b.im - a.im)) :
    z ∈ segment ℝ a b := by
  rw [segment_eq_image']
  exact ⟨t, ⟨h0, h1⟩, by apply Complex.ext <;> simp [hre, him]⟩

theorem bigBumpers_fills : Fills bigBumpers.points bigBumpersInside := by
  refine ⟨?_, ?_, ?_⟩
  · intro z hz
    rw [bigBumpersInside, Complex.frontier_reProdIm, closure_Icc, frontier_Icc (by norm_num : (-6 : ℝ) ≤ 6)] at hz
    right
    simp only [bigBumpers, edges, List.zip_cons_cons, List.zip_nil_right, List.getLast_cons_cons,
      List.getLast_singleton]
    rcases hz with ⟨⟨h1, h2⟩, h⟩ | ⟨h, ⟨h1, h2⟩⟩
    · rcases h with h | h
      · refine ⟨(⟨-6, -6⟩, ⟨6, -6⟩), by simp, seg_of_coords ((z.re + 6) / 12) ?_ ?_ ?_ ?_⟩
        · linarith
        · linarith
        · simp [vec]; ring
        · simpa [vec] using h
      · refine ⟨(⟨6, 6⟩, ⟨-6, 6⟩), by simp, seg_of_coords ((6 - z.re) / 12) ?_ ?_ ?_ ?_⟩
        · linarith
        · linarith
        · simp [vec]; ring
        · simpa [vec] using h
    · rcases h with h | h
      · refine ⟨(⟨-6, 6⟩, ⟨-6, -6⟩), by simp, seg_of_coords ((6 - z.im) / 12) ?_ ?_ ?_ ?_⟩
        · linarith
        · linarith
        · simpa [vec] using h
        · simp [vec]; ring
      · refine ⟨(⟨6, -6⟩, ⟨6, 6⟩), by simp, seg_of_coords ((z.im + 6) / 12) ?_ ?_ ?_ ?_⟩
        · linarith
        · linarith
        · simpa [vec] using h
        · simp [vec]; ring
  · intro p hp
    simp only [bigBumpers, List.mem_cons, List.not_mem_nil, or_false] at hp
    rcases hp with rfl | rfl | rfl | rfl <;>
      exact ⟨⟨by norm_num [vec], by norm_num [vec]⟩, ⟨by norm_num [vec], by norm_num [vec]⟩⟩
  · have hre : Convex ℝ (Complex.reLm ⁻¹' Set.Icc (-6 : ℝ) 6) :=
      (convex_Icc (-6 : ℝ) 6).linear_preimage Complex.reLm
    have him : Convex ℝ (Complex.imLm ⁻¹' Set.Icc (-6 : ℝ) 6) :=
      (convex_Icc (-6 : ℝ) 6).linear_preimage Complex.imLm
    exact (hre.inter him).isPreconnected

theorem pillar_fills (r y : ℝ) : Fills (pillar r y).points {vec ⟨0, y⟩} := by
  refine ⟨?_, ?_, isPreconnected_singleton⟩
  · intro z hz
    have hz' := isClosed_singleton.frontier_subset hz
    exact .inl ⟨⟨0, y⟩, by simp [pillar], hz'⟩
  · intro p hp
    simp only [pillar, List.mem_cons, List.not_mem_nil, or_false] at hp
    subst hp
    rfl

theorem view_coast (n : ℕ) (y : ℝ) :
    ((coast (-9) 9 1).state n).view (vec ⟨0, y⟩) = ⟨9 - 9 * n, y⟩ := by
  apply Complex.ext
  · simp [coast, State.view, vec]
    ring
  · simp [coast, State.view, vec]

/-- C98 is false: a robot 12 long that steps 9 drives over a round obstacle of radius 1 (2 with the
safety distance of the bumpers), which at the middle sample is in the middle of the robot; every keep-out
constraint holds. -/
theorem C98_refuted : ∃ (ops : List (Op ℝ)) (dr : SwerveDrivetrain ℝ) (T : Traj) (obs bum : Obstacle ℝ)
    (R O : Set ℂ), PathTable.AcceptsAll true PathTable.empty ops ∧
    Solves (run true ops Builder.new) dr T ∧ (table (run true ops Builder.new)).counts = [2] ∧
    (table (run true ops Builder.new)).Requires 0 1 (keepOuts obs bum) ∧
    bum.safetyDistance + obs.safetyDistance = 2 ∧ Fills bum.points R ∧ Fills obs.points O ∧
    Disjoint ((T.state 0).view ⁻¹' R) O ∧ Disjoint ((T.state 2).view ⁻¹' R) O ∧
    O ⊆ interior ((T.state 1).view ⁻¹' R) := by
  obtain ⟨hR, hc, hco, hi0, hi1⟩ := pass_table (r := 1) (y := 0) zero_le_one
  refine ⟨passOps 1 0, weakRobot, coast (-9) 9 1, pillar 1 0, bigBumpers, bigBumpersInside, _,
    pass_accepts zero_le_one, pass_solves (D := 2) zero_le_one (by norm_num) (by norm_num)
      ⟨by norm_num, by norm_num, .inl (by norm_num)⟩, hc, ⟨?_, ?_⟩, ?_, bigBumpers_fills, pillar_fills 1 0,
    ?_, ?_, ?_⟩
  · intro c hcm; rw [hi0]; exact List.mem_cons_of_mem _ hcm
  · intro s h1 h2
    obtain rfl : s = 0 := by omega
    rw [hco]; exact fun _ => id
  · norm_num [bigBumpers, pillar]
  · rw [Set.disjoint_singleton_right]
    intro h
    change _ ∈ bigBumpersInside at h
    rw [view_coast] at h
    have := h.1.2
    norm_num at this
  · rw [Set.disjoint_singleton_right]
    intro h
    change _ ∈ bigBumpersInside at h
    rw [view_coast] at h
    have := h.1.1
    norm_num at this
  · rw [Set.singleton_subset_iff]
    have hu : ‖((coast (-9) 9 1).state 1).heading‖ = 1 := by simp [coast]
    have := (viewHomeo _ hu).preimage_interior bigBumpersInside
    change _ = interior (((coast (-9) 9 1).state 1).view ⁻¹' bigBumpersInside) at this
    rw [← this]
    change ((coast (-9) 9 1).state 1).view (vec ⟨0, 0⟩) ∈ interior bigBumpersInside
    rw [view_coast, bigBumpersInside, Complex.interior_reProdIm, interior_Icc]
    constructor <;> norm_num

/-- Driving past an obstacle of radius 25, 40 away: the hypotheses of `C97_translating_partial` and
`C98_translating_partial` are met. -/
example : ∀ n, n ≤ 2 →
    Disjoint (((coast (-9) 9 1).state n).view ⁻¹' bigBumpersInside) {vec ⟨0, 40⟩} := by
  obtain ⟨hR, hc, hco, hi0, hi1⟩ := pass_table (r := 25) (y := 40) (by norm_num)
  have hw : waypointSample [2] 0 = 0 ∧ waypointSample [2] 1 = 2 := by simp [waypointSample]
  have h5 : (5 : ℝ) < Real.sqrt 26 := by
    rw [Real.lt_sqrt (by norm_num)]; norm_num
  have := C98_translating_partial _ weakRobot _
    (pass_solves (r := 25) (y := 40) (D := 34) (by norm_num) (by norm_num) (by norm_num)
      ⟨by norm_num, by norm_num, .inr (by norm_num)⟩) (pillar 25 40) bigBumpers (by simp [pillar])
    (by simp [bigBumpers]) 0 1 (by norm_num) (by rw [hc]; simp) ⟨?_, ?_⟩ 26 _
    (by norm_num [pillar, bigBumpers]) (by norm_num) rfl 0 2 (by rw [hc]; exact hw.1.symm)
    (by rw [hc]; exact hw.2.symm) ?_ ?_ 0 (by simp [weakRobot]) 10 (by norm_num) (.inr ?_) 1 (by simp)
    (fun n _ _ => rfl) ?_ ?_ bigBumpersInside _ bigBumpers_fills (pillar_fills 25 40) ?_
  · exact fun n hn => this n (Nat.zero_le _) hn
  · intro c hcm; rw [hi0]; exact List.mem_cons_of_mem _ hcm
  · intro s h1 h2
    obtain rfl : s = 0 := by omega
    rw [hco]; exact fun _ => id
  · simp [weakRobot, vec, Complex.ext_iff]
  · intro m hm
    rw [(weak_radius m hm).1, (weak_radius m hm).2]
    norm_num
  · norm_num [weakRobot]
  · rw [lt_iff_not_ge]
    intro h
    rw [← le_div_iff₀' (by norm_num : (0 : ℝ) < 2), min_le_iff] at h
    norm_num at h
    linarith
  · intro e he e' he'
    simp [pillar, edges] at he'
  · rw [Set.disjoint_singleton_right]
    intro h
    change _ ∈ bigBumpersInside at h
    rw [view_coast] at h
    have := h.2.2
    norm_num at this

/-- The hypotheses of `C98_turning_partial` are met: an obstacle of radius 149, 160 away. -/
example : ∀ n, n ≤ 2 →
    Disjoint (((coast (-9) 9 1).state n).view ⁻¹' bigBumpersInside) {vec ⟨0, 160⟩} := by
  obtain ⟨hR, hc, hco, hi0, hi1⟩ := pass_table (r := 149) (y := 160) (by norm_num)
  have hw : waypointSample [2] 0 = 0 ∧ waypointSample [2] 1 = 2 := by simp [waypointSample]
  have h5 : (12 : ℝ) < Real.sqrt 150 := by
    rw [Real.lt_sqrt (by norm_num)]; norm_num
  have hnorm : ∀ x y : ℝ, ‖vec ⟨x, y⟩‖ ^ 2 = x ^ 2 + y ^ 2 := fun x y => by
    rw [Complex.sq_norm, Complex.normSq_apply]
    simp only [vec]
    ring
  have := C98_turning_partial _ weakRobot _
    (pass_solves (r := 149) (y := 160) (D := 154) (by norm_num) (by norm_num) (by norm_num)
      ⟨by norm_num, by norm_num, .inr (by norm_num)⟩) (pillar 149 160) bigBumpers (by simp [pillar])
    (by simp [bigBumpers]) 0 1 (by norm_num) (by rw [hc]; simp) ⟨?_, ?_⟩ 150 _
    (by norm_num [pillar, bigBumpers]) (by norm_num) rfl 0 2 (by rw [hc]; exact hw.1.symm)
    (by rw [hc]; exact hw.2.symm) ?_ ?_ 0 (by simp [weakRobot]) 10 (by norm_num) (.inr ?_) 7 9 (by norm_num)
    ?_ ?_ (by simp [coast]) ?_ ?_ ?_ bigBumpersInside _ bigBumpers_fills (pillar_fills 149 160) ?_
  · exact fun n hn => this n (Nat.zero_le _) hn
  · intro c hcm; rw [hi0]; exact List.mem_cons_of_mem _ hcm
  · intro s h1 h2
    obtain rfl : s = 0 := by omega
    rw [hco]; exact fun _ => id
  · simp [weakRobot, vec, Complex.ext_iff]
  · intro m hm
    rw [(weak_radius m hm).1, (weak_radius m hm).2]
    norm_num
  · norm_num [weakRobot]
  · intro m hm
    simp only [weakRobot, List.mem_cons, List.not_mem_nil, or_false] at hm
    refine le_of_sq_le_sq ?_ (norm_nonneg _)
    rcases hm with rfl | rfl | rfl | rfl <;> rw [hnorm] <;> norm_num
  · intro p hp
    simp only [bigBumpers, List.mem_cons, List.not_mem_nil, or_false] at hp
    refine le_of_sq_le_sq ?_ (by norm_num)
    rcases hp with rfl | rfl | rfl | rfl <;> rw [hnorm] <;> norm_num
  · intro s hs n hn
    simp [coast, unitVec]
  · rw [lt_iff_not_ge]
    intro h
    rw [← le_div_iff₀' (by norm_num : (0 : ℝ) < 2), min_le_iff] at h
    norm_num at h
    linarith
  · intro e he e' he'
    simp [pillar, edges] at he'
  · rw [Set.disjoint_singleton_right]
    intro h
    change _ ∈ bigBumpersInside at h
    rw [view_coast] at h
    have := h.2.2
    norm_num at this

/-- On the same path a corner of the bumpers, kept 26 away at samples, is more than 25 away in between
(`C97_point_partial`). -/
example (n : ℕ) (hn : n < 2) (z : ℂ)
    (hz : z ∈ segment ℝ (((coast (-9) 9 1).state n).onRobot ⟨6, 6⟩)
      (((coast (-9) 9 1).state (n + 1)).onRobot ⟨6, 6⟩)) : 25 < dist z (vec ⟨0, 40⟩) := by
  obtain ⟨hR, hc, hco, hi0, hi1⟩ := pass_table (r := 25) (y := 40) (by norm_num)
  have hw : waypointSample [2] 0 = 0 ∧ waypointSample [2] 1 = 2 := by simp [waypointSample]
  have hmem : (.pointPoint ⟨6, 6⟩ ⟨0, 40⟩ 26 : Constraint ℝ) ∈ keepOuts (pillar 25 40) bigBumpers := by
    have := keepOuts_point (obs := pillar 25 40) (bum := bigBumpers) (q := ⟨0, 40⟩) rfl
      (p := ⟨6, 6⟩) (by simp [bigBumpers])
    have e : bigBumpers.safetyDistance + (pillar 25 40).safetyDistance = 26 := by
      norm_num [pillar, bigBumpers]
    rwa [e] at this
  have := C97_point_partial _ weakRobot _
    (pass_solves (r := 25) (y := 40) (D := 34) (by norm_num) (by norm_num) (by norm_num)
      ⟨by norm_num, by norm_num, .inr (by norm_num)⟩) ⟨6, 6⟩ ⟨0, 40⟩ 26 (by norm_num) 0 1 (by norm_num)
    (by rw [hc]; simp) ⟨?_, ?_⟩ n (by rw [hc, hw.1]; omega) (by rw [hc, hw.2]; omega) z hz
  · have h9 : ‖((coast (-9) 9 1).state (n + 1)).pos - ((coast (-9) 9 1).state n).pos‖ = 9 := by
      rw [show ((coast (-9) 9 1).state (n + 1)).pos - ((coast (-9) 9 1).state n).pos = (9 : ℝ) by
        simp [coast]; ring, Complex.norm_real]
      norm_num
    rw [onRobot_step (s := (coast (-9) 9 1).state n) (s' := (coast (-9) 9 1).state (n + 1)) rfl, h9] at this
    nlinarith [dist_nonneg (x := z) (y := vec (⟨0, 40⟩ : Translation2 ℝ))]
  · intro c hcm
    rw [List.mem_singleton] at hcm
    rw [hi0, hcm]; exact List.mem_cons_of_mem _ hmem
  · intro s h1 h2 c hcm
    rw [List.mem_singleton] at hcm
    obtain rfl : s = 0 := by omega
    rw [hco, hcm]; exact hmem

end Trajopt.Props
