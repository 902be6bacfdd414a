import Verif.Props.Examples
import Verif.Props.Trajectory

/-!
# C84 Start values and the equations of motion

The constructor starts the velocities at the differences of the guessed poses over the guess's time
step, and the time step of a segment at five seconds over its control intervals.  These are
different time steps.
-/

set_option autoImplicit false

namespace Trajopt.Props

open Spec Builder

/-- C84: by how much the start values miss the equations of motion.  In a segment with `N` control
intervals of a path with `K` segments and `S` samples, what velocities, accelerations and angular accelerations
add per step is `S / ((K + 1) N)` times the difference they should add. -/
theorem C84_scale (b : Builder ℝ) (hb : Reachable b) (dr : SwerveDrivetrain ℝ) (hr : Ready b dr)
    (handle : ℤ) (g : Generator ℝ) (hg : Generator.construct b handle = .ok g)
    (T : Traj) (hT : T = decode g.vars g.problem.values)
    (s : ℕ) (hs : s < (table b).counts.length) (n : ℕ) (hn : n ∈ segmentSamples (table b).counts s) :
    let r : ℝ := sampleCount (table b).counts /
      (((table b).counts.length + 1) * (table b).counts[s])
    T.dt s * (T.state n).vel = r * ((T.state n).pos - (T.state (n - 1)).pos) ∧
    T.dt s * (T.state n).acc = r * ((T.state n).vel - (T.state (n - 1)).vel) ∧
    T.dt s * (T.state n).alpha = r * ((T.state n).omega - (T.state (n - 1)).omega) := by
  obtain ⟨sol, d, -, hd, -, -, -, h1, -, h2⟩ := C43_start b hb dr hr handle g hg T hT
  obtain ⟨a1, a2⟩ := Finset.mem_Ioc.mp hn
  have hN : 0 < (table b).counts[s] := by
    rw [waypointSample, List.take_succ_eq_append_getElem hs, List.sum_append, List.sum_singleton] at a2
    rw [waypointSample] at a1
    omega
  have hS : n < sampleCount (table b).counts := by
    have : ((table b).counts.take (s + 1)).sum + ((table b).counts.drop (s + 1)).sum =
        (table b).counts.sum := by rw [← List.sum_append, List.take_append_drop]
    rw [waypointSample] at a2
    rw [sampleCount]
    omega
  obtain ⟨k, rfl⟩ : ∃ k, n = k + 1 := ⟨n - 1, by omega⟩
  obtain ⟨v, a, al, -⟩ := h1 k hS
  have hdt : T.dt s = 5 / ((table b).counts[s] : ℝ) := h2 ⟨s, hs⟩ hN
  have hN' : ((table b).counts[s] : ℝ) ≠ 0 := by positivity
  have hS' : (sampleCount (table b).counts : ℝ) ≠ 0 := by
    rw [sampleCount]; positivity
  have hK : ((table b).counts.length : ℝ) + 1 ≠ 0 := by positivity
  have hd0 : d ≠ 0 := by rw [hd]; positivity
  have hr : T.dt s / d = sampleCount (table b).counts /
      (((table b).counts.length + 1) * (table b).counts[s]) := by
    rw [hdt, hd]; field_simp
  intro r
  rw [show r = _ from hr.symm, Nat.add_sub_cancel]
  refine ⟨?_, ?_, ?_⟩
  · rw [v]; push_cast; ring
  · rw [a]; push_cast; ring
  · rw [al]; ring

/-- C84: the equations of motion hold at a sample of a segment with `N` control intervals exactly if nothing changes
there, or `(K + 1) N` is the number of samples. -/
theorem C84_exact_partial (b : Builder ℝ) (hb : Reachable b) (dr : SwerveDrivetrain ℝ) (hr : Ready b dr)
    (handle : ℤ) (g : Generator ℝ) (hg : Generator.construct b handle = .ok g)
    (T : Traj) (hT : T = decode g.vars g.problem.values)
    (s : ℕ) (hs : s < (table b).counts.length) (n : ℕ) (hn : n ∈ segmentSamples (table b).counts s) :
    ((T.state n).pos = (T.state (n - 1)).pos + T.dt s * (T.state n).vel ↔
      (T.state n).pos = (T.state (n - 1)).pos ∨
        ((table b).counts.length + 1) * (table b).counts[s] = sampleCount (table b).counts) ∧
    ((T.state n).vel = (T.state (n - 1)).vel + T.dt s * (T.state n).acc ↔
      (T.state n).vel = (T.state (n - 1)).vel ∨
        ((table b).counts.length + 1) * (table b).counts[s] = sampleCount (table b).counts) ∧
    ((T.state n).omega = (T.state (n - 1)).omega + T.dt s * (T.state n).alpha ↔
      (T.state n).omega = (T.state (n - 1)).omega ∨
        ((table b).counts.length + 1) * (table b).counts[s] = sampleCount (table b).counts) := by
  have hN : 0 < (table b).counts[s] := by
    obtain ⟨a1, a2⟩ := Finset.mem_Ioc.mp hn
    rw [waypointSample, List.take_succ_eq_append_getElem hs, List.sum_append, List.sum_singleton] at a2
    rw [waypointSample] at a1
    omega
  obtain ⟨h1, h2, h3⟩ := C84_scale b hb dr hr handle g hg T hT s hs n hn
  have hr1 : ((sampleCount (table b).counts : ℝ) /
      (((table b).counts.length + 1) * (table b).counts[s]) = 1) ↔
      ((table b).counts.length + 1) * (table b).counts[s] = sampleCount (table b).counts := by
    rw [div_eq_one_iff_eq (by positivity), eq_comm]
    exact_mod_cast Iff.rfl
  generalize (sampleCount (table b).counts : ℝ) /
      (((table b).counts.length + 1) * (table b).counts[s]) = r at h1 h2 h3 hr1
  rw [← hr1, h1, h2, h3]
  have key : ∀ x y : ℂ, x = y + r * (x - y) ↔ x = y ∨ r = 1 := by
    intro x y
    rw [← sub_eq_zero, show x - (y + r * (x - y)) = (x - y) * (1 - r) by ring, mul_eq_zero, sub_eq_zero,
      sub_eq_zero, eq_comm (a := (1 : ℂ))]
    exact_mod_cast Iff.rfl
  refine ⟨key _ _, key _ _, ?_⟩
  rw [← sub_eq_zero, show (T.state n).omega - ((T.state (n - 1)).omega +
      r * ((T.state n).omega - (T.state (n - 1)).omega)) =
      ((T.state n).omega - (T.state (n - 1)).omega) * (1 - r) by ring, mul_eq_zero, sub_eq_zero,
    sub_eq_zero, eq_comm (a := (1 : ℝ))]

/-- C84: the second case occurs in all segments exactly if every segment has a single control interval. -/
theorem C84_single (N : List ℕ) :
    (∀ k ∈ N, (N.length + 1) * k = sampleCount N) ↔ ∀ k ∈ N, k = 1 := by
  constructor
  · intro h k hk
    have hall : N = List.replicate N.length k := by
      refine List.eq_replicate_iff.mpr ⟨rfl, fun k' hk' => ?_⟩
      exact Nat.eq_of_mul_eq_mul_left (Nat.succ_pos _) ((h k' hk').trans (h k hk).symm)
    have := h k hk
    rw [sampleCount] at this
    have hsum : N.sum = N.length * k := by
      conv_lhs => rw [hall]
      simp
    rw [hsum] at this
    nlinarith
  · intro h k hk
    have hall : N = List.replicate N.length 1 := List.eq_replicate_iff.mpr ⟨rfl, h⟩
    have hsum : N.sum = N.length := by
      conv_lhs => rw [hall]
      simp
    rw [sampleCount, hsum, h k hk]
    omega

/-- C84, non-vacuity: three segments with a single control interval each. -/
example : ∀ k ∈ [1, 1, 1], ([1, 1, 1].length + 1) * k = sampleCount [1, 1, 1] :=
  (C84_single [1, 1, 1]).mpr (by simp)

/-- C84: a segment between waypoints guessed at different places, unless by coincidence `(K + 1) N` is the
number of samples, has a sample at which the start values violate the equation for the positions. -/
theorem C84_violated (b : Builder ℝ) (hb : Reachable b) (dr : SwerveDrivetrain ℝ) (hr : Ready b dr)
    (handle : ℤ) (g : Generator ℝ) (hg : Generator.construct b handle = .ok g)
    (T : Traj) (hT : T = decode g.vars g.problem.values) (s : ℕ) (hs : s < (table b).counts.length)
    (hne : ((table b).counts.length + 1) * (table b).counts[s] ≠ sampleCount (table b).counts)
    (hguess : (T.state (waypointSample (table b).counts (s + 1))).pos ≠
      (T.state (waypointSample (table b).counts s)).pos) :
    ∃ n ∈ segmentSamples (table b).counts s,
      (T.state n).pos ≠ (T.state (n - 1)).pos + T.dt s * (T.state n).vel := by
  by_contra hcon
  push Not at hcon
  apply hguess
  have step : ∀ n ∈ segmentSamples (table b).counts s, (T.state n).pos = (T.state (n - 1)).pos :=
    fun n hn => (((C84_exact_partial b hb dr hr handle g hg T hT s hs n hn).1.mp (hcon n hn)).resolve_right
      hne)
  have key : ∀ k, waypointSample (table b).counts s + k ≤ waypointSample (table b).counts (s + 1) →
      (T.state (waypointSample (table b).counts s + k)).pos =
        (T.state (waypointSample (table b).counts s)).pos := by
    intro k
    induction k with
    | zero => intro _; rfl
    | succ k ih =>
      intro hk
      have := step (waypointSample (table b).counts s + (k + 1)) (Finset.mem_Ioc.mpr ⟨by omega, hk⟩)
      rw [this, ← ih (by omega)]
      rfl
  have hle : waypointSample (table b).counts s ≤ waypointSample (table b).counts (s + 1) := by
    unfold waypointSample
    rw [List.take_add, List.sum_append]
    exact Nat.le_add_right _ _
  have := key (waypointSample (table b).counts (s + 1) - waypointSample (table b).counts s) (by omega)
  rwa [Nat.add_sub_cancel' hle] at this

theorem cpp1_table (asserts : Bool) : table (run asserts Examples.cpp1 (Builder.new : Builder ℝ)) =
    PathTable.empty.afterAll Examples.cpp1 :=
  (C81_history asserts Examples.cpp1
      (by simp [Examples.cpp1, PathTable.AcceptsAll, PathTable.Accepts])).1

/-- C84 (refuted): in the first example program the start values violate the equation for the positions. -/
theorem C84_refuted (asserts : Bool) (handle : ℤ) :
    ∃ g, Generator.construct (run asserts Examples.cpp1 (Builder.new : Builder ℝ)) handle = .ok g ∧
    ∃ n, 1 ≤ n ∧ n ≤ 40 ∧
      let T := decode g.vars g.problem.values
      (T.state n).pos ≠ (T.state (n - 1)).pos + T.dt 0 * (T.state n).vel := by
  generalize hbb : run asserts Examples.cpp1 (Builder.new : Builder ℝ) = b
  have hb : Reachable b := ⟨asserts, _, hbb.symm⟩
  have e := cpp1_table asserts
  rw [hbb] at e
  have hcounts : (table b).counts = [40] := by
    rw [e]; simp [Examples.cpp1, PathTable.afterAll, PathTable.after]
  have hwp : (table b).waypoints = 2 := by
    rw [e]; simp [Examples.cpp1, PathTable.afterAll, PathTable.after, PathTable.reach,
      PathTable.requireAt, PathTable.guessAt, PathTable.empty]
  have hr : Ready b shippedRobot := by
    refine ⟨?_, ?_, ?_⟩
    · rw [e]; simp [Examples.cpp1, PathTable.afterAll, PathTable.after, PathTable.reach,
        PathTable.requireAt, PathTable.guessAt, examples_robot]
    · rw [hcounts, hwp]; simp
    · rw [hcounts]; simp [sampleCount]
  have hg0 : (table b).guess 0 = [.ofXYHeading 0 0 0] := by
    rw [e]; simp [Examples.cpp1, PathTable.afterAll, PathTable.after, PathTable.reach,
      PathTable.requireAt, PathTable.guessAt, PathTable.empty]
  have hg1 : (table b).guess 1 = [.ofXYHeading 1 0 0] := by
    rw [e]; simp [Examples.cpp1, PathTable.afterAll, PathTable.after, PathTable.reach,
      PathTable.requireAt, PathTable.guessAt, PathTable.empty]
  obtain ⟨g, hg, -⟩ := C29_problem b hb shippedRobot hr shipped_radius handle
  refine ⟨g, hg, ?_⟩
  obtain ⟨sol, d, hsol, -, -, hx, -⟩ := C43_start b hb shippedRobot hr handle g hg _ rfl
  have hlen := (C08_tables asserts Examples.cpp1 b hbb.symm).1
  have hwp' : b.path.waypoints.length = 2 := hwp
  have hc' : b.controlIntervalCounts = [40] := hcounts
  have get : ∀ i < 2, b.initialGuessPoints[i]? = some ((table b).guess i) := by
    intro i hi
    have : i < b.initialGuessPoints.length := by omega
    simp [table, List.getD, List.getElem?_eq_getElem this]
  have x0 : sol.x[0]? = some 0 := by
    obtain ⟨p, ps, h1, h2, -⟩ := C05_start _ _ _ hsol (by rw [hc']; simp [sampleCount])
    rw [get 0 (by norm_num), hg0, Option.some.injEq, List.cons.injEq] at h1
    rw [h2, ← h1.1]
    rfl
  have x1 : sol.x[40]? = some 1 := by
    have := (C05_waypoints _ _ _ hsol (by rw [hc']; simp [sampleCount]) 0 (by rw [hc']; simp)
      (by simp [hc']) _ _ (get 1 (by norm_num)) (by rw [hg1]; rfl)).1
    rw [hc'] at this
    exact this
  have y0 := (hx 0 (by rw [hcounts]; simp [sampleCount])).1
  have y1 := (hx 40 (by rw [hcounts]; simp [sampleCount])).1
  rw [x0, Option.some.injEq] at y0
  rw [x1, Option.some.injEq] at y1
  have hs0 : 0 < (table b).counts.length := by rw [hcounts]; simp
  have w0 : waypointSample (table b).counts 0 = 0 := by simp [waypointSample]
  have w1 : waypointSample (table b).counts (0 + 1) = 40 := by simp [hcounts, waypointSample]
  obtain ⟨n, hn, hv⟩ := C84_violated b hb shippedRobot hr handle g hg _ rfl 0 hs0
    (by simp [hcounts, sampleCount]) (by
      rw [w0, w1]
      intro h
      rw [h, ← y0] at y1
      norm_num at y1)
  obtain ⟨a1, a2⟩ := Finset.mem_Ioc.mp hn
  rw [w0] at a1
  rw [w1] at a2
  exact ⟨n, a1, a2, hv⟩

end Trajopt.Props
