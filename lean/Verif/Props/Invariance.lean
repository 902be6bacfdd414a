import Verif.Props.Physics
import Verif.Lemmas.Change
import Verif.Lemmas.Frame

/-!
# C39–C41, C61 What the generated problem does not depend on (real arithmetic)
-/

set_option autoImplicit false

namespace Trajopt.Props

open Spec Builder

/-! ### C40 Monotonicity -/

theorem obeys_mono {t t' : PathTable ℝ} {dr : SwerveDrivetrain ℝ} {T : Traj}
    (hN : t.counts = t'.counts) (hi : ∀ w ≤ t.counts.length, ∀ c ∈ t.instant w, c ∈ t'.instant w)
    (hc : ∀ s < t.counts.length, ∀ c ∈ t.continuous s, c ∈ t'.continuous s)
    (h : Obeys t' dr T) : Obeys t dr T := by
  obtain ⟨h1, h2, h3, h4, h5, h6⟩ := h
  refine ⟨?_, ?_, ?_, ?_, ?_, ?_⟩
  · rw [hN]; exact h1
  · rw [hN]; exact h2
  · rw [hN]; exact h3
  · rw [hN]; exact h4
  · intro w hw c hcw
    have := h5 w (hN ▸ hw) c (hi w hw c hcw)
    rwa [hN]
  · intro s hs c hcs n hn
    exact h6 s (hN ▸ hs) c (hc s hs c hcs) n (hN ▸ hn)

/-- C40: of two paths with the same drivetrain and control interval counts, the one whose
constraints are among the other's (in whatever order or multiplicity) admits all of the other's
trajectories. -/
theorem C40_monotone (b b' : Builder ℝ) (hb : Reachable b)
    (hw : (table b).counts.length < (table b).waypoints)
    (hd : (table b).drivetrain = (table b').drivetrain)
    (hN : (table b).counts = (table b').counts)
    (hi : ∀ w, ∀ c ∈ (table b).instant w, c ∈ (table b').instant w)
    (hc : ∀ s, ∀ c ∈ (table b).continuous s, c ∈ (table b').continuous s)
    (dr : SwerveDrivetrain ℝ) (T : Traj) (h : Solves b' dr T) : Solves b dr T := by
  have hr : Ready b dr := ⟨hd.trans h.ready.drivetrain, hw, by rw [hN]; exact h.ready.size⟩
  exact (solves_iff hb hr h.radius).mpr
    (obeys_mono hN (fun w _ => hi w) (fun s _ => hc s) h.obeys)

/-- C40: `WptConstraint` on an existing waypoint only removes trajectories, and none if the
constraint is there already. -/
theorem C40_wpt (b : Builder ℝ) (hb : Reachable b) (i : ℕ) (hi' : i < 2 ^ 63)
    (hi : i < (table b).waypoints) (c : Constraint ℝ) (dr : SwerveDrivetrain ℝ) (T : Traj) :
    (Solves (b.wptConstraint i c).1 dr T → Solves b dr T) ∧
    (c ∈ (table b).instant i → (Solves (b.wptConstraint i c).1 dr T ↔ Solves b dr T)) := by
  obtain ⟨b', e, t⟩ := C11_wpt_constraint b hb i hi' c
  have hb' : Reachable b' := by
    obtain ⟨asserts, ops, h⟩ := hb
    exact ⟨asserts, _, run_snoc h (op := .wptConstraint i c) e⟩
  rw [e]
  have hmax : max (table b).waypoints (i + 1) = (table b).waypoints := by omega
  have hN : (table b').counts = (table b).counts := by
    rw [t]
    simp only [PathTable.requireAt, PathTable.reach, hmax]
    simp [show (table b).waypoints - max (table b).waypoints 1 = 0 by omega]
  have hw : (table b').waypoints = (table b).waypoints := by
    rw [t]; simp only [PathTable.requireAt, PathTable.reach, hmax]
  have hd : (table b').drivetrain = (table b).drivetrain := by rw [t]; rfl
  have hins : ∀ w, (table b').instant w =
      if w = i then (table b).instant w ++ [c] else (table b).instant w := by
    intro w; rw [t]; rfl
  have hcon : ∀ s, (table b').continuous s = (table b).continuous s := by
    intro s; rw [t]; rfl
  have h1 : Solves b' dr T → Solves b dr T := by
    intro h
    refine C40_monotone b b' hb (by rw [← hN, ← hw]; exact h.ready.counts) hd.symm hN.symm ?_ ?_
      dr T h
    · intro w c' hc'
      rw [hins]
      split
      · simp [hc']
      · exact hc'
    · intro s c' hc'; rw [hcon]; exact hc'
  refine ⟨h1, fun hc => ⟨h1, fun h => ?_⟩⟩
  refine C40_monotone b' b hb' (by rw [hN, hw]; exact h.ready.counts) hd hN ?_ ?_ dr T h
  · intro w c' hc'
    rw [hins] at hc'
    split at hc'
    next hwi =>
      subst hwi
      simp only [List.mem_append, List.mem_singleton] at hc'
      rcases hc' with h' | rfl
      · exact h'
      · exact hc
    next => exact hc'
  · intro s c' hc'; rw [hcon] at hc'; exact hc'

/-- C40: likewise `SgmtConstraint` between existing waypoints. -/
theorem C40_sgmt (asserts : Bool) (b : Builder ℝ) (hb : Reachable b) (i j : ℕ) (hij : i < j)
    (hj' : j < 2 ^ 63) (hj : j < (table b).waypoints) (c : Constraint ℝ)
    (dr : SwerveDrivetrain ℝ) (T : Traj) :
    (Solves (b.sgmtConstraint asserts i j c).1 dr T → Solves b dr T) ∧
    ((∀ w, i ≤ w → w ≤ j → c ∈ (table b).instant w) →
      (∀ s, i ≤ s → s < j → c ∈ (table b).continuous s) →
      (Solves (b.sgmtConstraint asserts i j c).1 dr T ↔ Solves b dr T)) := by
  obtain ⟨b', e, t⟩ := C11_sgmt_constraint asserts b hb i j hij hj' c
  have hb' : Reachable b' := by
    obtain ⟨asserts', ops, h⟩ := hb
    obtain ⟨b'', e', t'⟩ := C11_sgmt_constraint asserts' b ⟨asserts', ops, h⟩ i j hij hj' c
    have : b'' = b' := by
      have h1 : (b.sgmtConstraint asserts i j c) = b.sgmtConstraint asserts' i j c := by
        unfold Builder.sgmtConstraint
        simp [hij]
      rw [h1, e'] at e
      exact (Prod.mk.inj e).1
    subst this
    exact ⟨asserts', _, run_snoc h (op := .sgmtConstraint i j c) e'⟩
  rw [e]
  have hmax : max (table b).waypoints (j + 1) = (table b).waypoints := by omega
  have hN : (table b').counts = (table b).counts := by
    rw [t]
    simp only [PathTable.requireAlong, PathTable.reach, hmax]
    simp [show (table b).waypoints - max (table b).waypoints 1 = 0 by omega]
  have hw : (table b').waypoints = (table b).waypoints := by
    rw [t]; simp only [PathTable.requireAlong, PathTable.reach, hmax]
  have hd : (table b').drivetrain = (table b).drivetrain := by rw [t]; rfl
  have hins : ∀ w, (table b').instant w =
      if i ≤ w ∧ w ≤ j then (table b).instant w ++ [c] else (table b).instant w := by
    intro w; rw [t]; rfl
  have hcon : ∀ s, (table b').continuous s =
      if i ≤ s ∧ s < j then (table b).continuous s ++ [c] else (table b).continuous s := by
    intro s; rw [t]; rfl
  have h1 : Solves b' dr T → Solves b dr T := by
    intro h
    refine C40_monotone b b' hb (by rw [← hN, ← hw]; exact h.ready.counts) hd.symm hN.symm ?_ ?_
      dr T h
    · intro w c' hc'
      rw [hins]
      split
      · simp [hc']
      · exact hc'
    · intro s c' hc'
      rw [hcon]
      split
      · simp [hc']
      · exact hc'
  refine ⟨h1, fun hi hc => ⟨h1, fun h => ?_⟩⟩
  refine C40_monotone b' b hb' (by rw [hN, hw]; exact h.ready.counts) hd hN ?_ ?_ dr T h
  · intro w c' hc'
    rw [hins] at hc'
    split at hc'
    next hwi =>
      simp only [List.mem_append, List.mem_singleton] at hc'
      rcases hc' with h' | rfl
      · exact h'
      · exact hi w hwi.1 hwi.2
    next => exact hc'
  · intro w c' hc'
    rw [hcon] at hc'
    split at hc'
    next hwi =>
      simp only [List.mem_append, List.mem_singleton] at hc'
      rcases hc' with h' | rfl
      · exact h'
      · exact hc w hwi.1 hwi.2
    next => exact hc'

/-- C40 applies to the demonstration path: its speed limit, repeated, changes nothing. -/
example (T : Traj) : Solves (demoBuilder.sgmtConstraint true 0 1 (.linearVelocityMaxMagnitude 2)).1
    demoRobot T ↔ Solves demoBuilder demoRobot T := by
  obtain ⟨h1, h2, h3, h4, h5, h6, -⟩ := demo_table
  refine (C40_sgmt true demoBuilder ⟨true, demoOps, rfl⟩ 0 1 (by norm_num) (by norm_num)
    (by rw [h1]; norm_num) _ demoRobot T).2 ?_ ?_
  · intro w _ hw
    have : w = 0 ∨ w = 1 := by omega
    rcases this with rfl | rfl
    · rw [h4]; simp
    · rw [h5]; simp
  · intro s _ hs
    have : s = 0 := by omega
    subst this
    rw [h6]; simp

/-! ### C41, C61 Frames -/

theorem obeys_change {t t' : PathTable ℝ} {dr dr' : SwerveDrivetrain ℝ} {T T' : Traj}
    (R : Change ℝ) (hN : t'.counts = t.counts) (hi : ∀ w, t'.instant w = (t.instant w).map R.con)
    (hc : ∀ s, t'.continuous s = (t.continuous s).map R.con) (hdt : T'.dt = T.dt)
    (hmean : ∀ c, ((∃ w ≤ t.counts.length, c ∈ t.instant w) ∨ ∃ s < t.counts.length, c ∈ t.continuous s) →
      ∀ n, Meaning (R.con c) (T'.state n) ↔ Meaning c (T.state n))
    (hint : ∀ d n k, Interval d (T'.state n) (T'.state k) ↔ Interval d (T.state n) (T.state k))
    (hdyn : ∀ n, Dynamics dr' (T'.state n) (T'.force n) ↔ Dynamics dr (T.state n) (T.force n))
    (hcap : ∀ s < t.counts.length, (∀ m ∈ dr'.modules, ∀ g, Gap dr' g →
        T.dt s * m.wheelRadius * m.wheelMaxAngularVelocity ≤ g) ↔
      ∀ m ∈ dr.modules, ∀ g, Gap dr g → T.dt s * m.wheelRadius * m.wheelMaxAngularVelocity ≤ g) :
    Obeys t' dr' T' ↔ Obeys t dr T := by
  constructor
  · rintro ⟨h1, h2, h3, h4, h5, h6⟩
    rw [hN] at h1 h2 h3 h4 h5 h6
    rw [hdt] at h1 h3 h4
    refine ⟨fun s hs n hn => (hint _ _ _).mp (h1 s hs n hn), fun n hn => (hdyn n).mp (h2 n hn), h3,
      fun s hs => (hcap s hs).mp (h4 s hs), fun w hw c hcw => (hmean c (.inl ⟨w, hw, hcw⟩) _).mp (h5 w hw _ ?_),
      fun s hs c hcs n hn => (hmean c (.inr ⟨s, hs, hcs⟩) _).mp (h6 s hs _ ?_ n hn)⟩
    · rw [hi]; exact List.mem_map_of_mem hcw
    · rw [hc]; exact List.mem_map_of_mem hcs
  · rintro ⟨h1, h2, h3, h4, h5, h6⟩
    refine ⟨?_, ?_, ?_, ?_, ?_, ?_⟩ <;> rw [hN]
    · rw [hdt]; exact fun s hs n hn => (hint _ _ _).mpr (h1 s hs n hn)
    · exact fun n hn => (hdyn n).mpr (h2 n hn)
    · rw [hdt]; exact h3
    · rw [hdt]; exact fun s hs => (hcap s hs).mpr (h4 s hs)
    · intro w hw c hcw
      rw [hi] at hcw
      obtain ⟨c, hc', rfl⟩ := List.mem_map.mp hcw
      exact (hmean c (.inl ⟨w, hw, hc'⟩) _).mpr (h5 w hw c hc')
    · intro s hs c hcs n hn
      rw [hc] at hcs
      obtain ⟨c, hc', rfl⟩ := List.mem_map.mp hcs
      exact (hmean c (.inr ⟨s, hs, hc'⟩) _).mpr (h6 s hs c hc' n hn)

theorem motion_drivetrain (φ x y : ℝ) (dr : SwerveDrivetrain ℝ) :
    (motion φ x y).drivetrain dr = dr := by
  cases dr
  simp only [Change.drivetrain, SwerveDrivetrain.mk.injEq]
  exact ⟨rfl, rfl, List.map_id _⟩

/-- C41: turn the field of a path by `φ` and shift it by `(x, y)`, in all calls of its history: the
feasible trajectories are the turned and shifted ones. -/
theorem C41_motion (φ x y : ℝ) (asserts : Bool) (ops : List (Op ℝ)) (dr : SwerveDrivetrain ℝ)
    (T : Traj) :
    Solves (run asserts ops Builder.new) dr T ↔
      Solves (run asserts (ops.map (motion φ x y).op) Builder.new) dr (T.moved φ x y) := by
  obtain ⟨h1, h2, h3, h4, h5⟩ := (rel_new (R := motion φ x y) ⟨fun _ _ => rfl, fun _ => rfl⟩ asserts ops).table
  generalize hb : run asserts ops Builder.new = b at h1 h2 h3 h4 h5
  generalize hb' : run asserts (ops.map (motion φ x y).op) Builder.new = b' at h1 h2 h3 h4 h5
  have hreach : Reachable b := ⟨asserts, ops, hb.symm⟩
  have hreach' : Reachable b' := ⟨asserts, _, hb'.symm⟩
  have hmap : (table b).drivetrain.map (motion φ x y).drivetrain = (table b).drivetrain := by
    cases (table b).drivetrain with
    | none => rfl
    | some d => rw [Option.map_some, motion_drivetrain]
  rw [hmap] at h3
  have hready : Ready b dr ↔ Ready b' dr := by
    constructor <;> rintro ⟨r1, r2, r3⟩
    · exact ⟨h3.trans r1, by rw [h1, h2]; exact r2, by rw [h2]; exact r3⟩
    · exact ⟨h3.symm.trans r1, by rw [← h1, ← h2]; exact r2, by rw [← h2]; exact r3⟩
  have key : Obeys (table b') dr (T.moved φ x y) ↔ Obeys (table b) dr T :=
    obeys_change (motion φ x y) h2 h4 h5 rfl (fun c _ n => meaning_moved φ x y c _)
      (fun d n k => interval_moved φ x y d _ _) (fun n => dynamics_moved φ x y dr _ _)
      (fun _ _ => Iff.rfl)
  constructor
  · intro h
    exact (solves_iff hreach' (hready.mp h.ready) h.radius).mpr (key.mpr h.obeys)
  · intro h
    exact (solves_iff hreach (hready.mpr h.ready) h.radius).mpr (key.mp h.obeys)

/-- C41 applies to the demonstration path: it can be driven in any direction from anywhere. -/
example (φ x y : ℝ) : ∃ T, Solves (run true (demoOps.map (motion φ x y).op) Builder.new) demoRobot T ∧
    (T.state 0).pos = ⟨x, y⟩ ∧ (T.state 1).pos = unitVec φ + ⟨x, y⟩ := by
  refine ⟨_, (C41_motion φ x y true demoOps demoRobot _).mp (demo_solves_flip 1 (.inl rfl)), ?_, ?_⟩
  · simp [Traj.moved, State.moved, driveTraj]
  · simp [Traj.moved, State.moved, driveTraj]

theorem mirror_gap (dr : SwerveDrivetrain ℝ) (g : ℝ) : Gap (mirror.drivetrain dr) g ↔ Gap dr g := by
  have hz : (mirror.drivetrain dr).modules.zip (mirror.drivetrain dr).modules.tail =
      (dr.modules.zip dr.modules.tail).map (Prod.map
        (fun m => { m with translation := mirror.robot m.translation })
        (fun m => { m with translation := mirror.robot m.translation })) := by
    simp only [Change.drivetrain]
    rw [← List.map_tail, List.zip_map]
    rfl
  unfold Gap
  refine and_congr_right fun _ => ?_
  rw [hz]
  have hy : ∀ a b : ℝ, |(-a) - (-b)| = |a - b| := by
    intro a b
    rw [← abs_neg]
    congr 1
    ring
  constructor
  · rintro ⟨a, b, hab, h⟩
    obtain ⟨⟨a, b⟩, h', e⟩ := List.mem_map.mp hab
    obtain ⟨rfl, rfl⟩ := Prod.mk.inj e
    refine ⟨a, b, h', ?_⟩
    simp only [mirror, hy] at h
    exact h
  · rintro ⟨a, b, hab, h⟩
    refine ⟨_, _, List.mem_map.mpr ⟨(a, b), hab, rfl⟩, ?_⟩
    simp only [mirror, hy]
    exact h

/-- C61: reflect field, robot and bumpers in all calls of a path's history: the feasible
trajectories are the reflected ones. -/
theorem C61_mirror (asserts : Bool) (ops : List (Op ℝ)) (dr : SwerveDrivetrain ℝ) (T : Traj) :
    Solves (run asserts ops Builder.new) dr T ↔
      Solves (run asserts (ops.map mirror.op) Builder.new) (mirror.drivetrain dr) T.mirrored := by
  obtain ⟨h1, h2, h3, h4, h5⟩ := (rel_new (R := mirror) ⟨fun _ _ => rfl, fun _ => rfl⟩ asserts ops).table
  generalize hb : run asserts ops Builder.new = b at h1 h2 h3 h4 h5
  generalize hb' : run asserts (ops.map mirror.op) Builder.new = b' at h1 h2 h3 h4 h5
  have hreach : Reachable b := ⟨asserts, ops, hb.symm⟩
  have hreach' : Reachable b' := ⟨asserts, _, hb'.symm⟩
  have hinj : Function.Injective mirror.drivetrain := by
    intro d d' h
    have hinv : ∀ d, mirror.drivetrain (mirror.drivetrain d) = d := by
      intro d
      cases d
      simp only [Change.drivetrain, List.map_map, SwerveDrivetrain.mk.injEq]
      refine ⟨rfl, rfl, (List.map_congr_left fun m _ => ?_).trans (List.map_id _)⟩
      simp only [Function.comp, mirror_wheel]
      simp [mirror]
    rw [← hinv d, h, hinv]
  have hready : Ready b dr ↔ Ready b' (mirror.drivetrain dr) := by
    constructor <;> rintro ⟨r1, r2, r3⟩
    · exact ⟨by rw [h3, r1]; rfl, by rw [h1, h2]; exact r2, by rw [h2]; exact r3⟩
    · refine ⟨?_, by rw [← h1, ← h2]; exact r2, by rw [← h2]; exact r3⟩
      rw [h3] at r1
      exact Option.map_injective hinj r1
  have hradius : (∀ m ∈ (mirror.drivetrain dr).modules, m.wheelRadius ≠ 0) ↔
      ∀ m ∈ dr.modules, m.wheelRadius ≠ 0 := by
    simp [Change.drivetrain, mirror_wheel]
  have hcap : ∀ d : ℝ, (∀ m ∈ (mirror.drivetrain dr).modules, ∀ g, Gap (mirror.drivetrain dr) g →
        d * m.wheelRadius * m.wheelMaxAngularVelocity ≤ g) ↔
      ∀ m ∈ dr.modules, ∀ g, Gap dr g → d * m.wheelRadius * m.wheelMaxAngularVelocity ≤ g := by
    intro d
    simp only [mirror_gap]
    simp [Change.drivetrain, mirror_wheel]
  have key : Obeys (table b') (mirror.drivetrain dr) T.mirrored ↔ Obeys (table b) dr T :=
    obeys_change mirror h2 h4 h5 rfl (fun c _ n => meaning_mirrored c _)
      (fun d n k => interval_mirrored d _ _) (fun n => dynamics_mirrored dr _ _) fun s _ => hcap _
  constructor
  · intro h
    exact (solves_iff hreach' (hready.mp h.ready) (hradius.mpr h.radius)).mpr (key.mpr h.obeys)
  · intro h
    exact (solves_iff hreach (hready.mpr h.ready) (hradius.mp h.radius)).mpr (key.mp h.obeys)

/-- C61 applies to the demonstration path. -/
example : ∃ T, Solves (run true (demoOps.map mirror.op) Builder.new) (mirror.drivetrain demoRobot) T :=
  ⟨_, (C61_mirror true demoOps demoRobot _).mp (demo_solves_flip 1 (.inl rfl))⟩

/-! ### C39 Module order -/

theorem setDrivetrain_reachable {b : Builder ℝ} (hb : Reachable b) (d : SwerveDrivetrain ℝ) :
    Reachable (b.setDrivetrain d) := by
  obtain ⟨asserts, ops, h⟩ := hb
  exact ⟨asserts, _, run_snoc h (op := .setDrivetrain d) rfl⟩

/-- C39, what holds: if in the new order every gap between neighbours is at least as large as some
gap between neighbours in the old order, all trajectories stay feasible with the forces permuted.
Missing: orders that create a smaller gap. -/
theorem C39_partial (b : Builder ℝ) (dr dr' : SwerveDrivetrain ℝ) (hmass : dr'.mass = dr.mass)
    (hmoi : dr'.moi = dr.moi) (e : Fin dr'.modules.length ≃ Fin dr.modules.length)
    (hmod : ∀ j, dr'.modules[j] = dr.modules[e j])
    (hgap : ∀ g', Gap dr' g' → ∃ g, Gap dr g ∧ g ≤ g') (T T' : Traj)
    (hs : T'.state = T.state) (hdt : T'.dt = T.dt)
    (hF : ∀ n, ∀ j : Fin dr'.modules.length, T'.force n j = T.force n (e j))
    (h : Solves (b.setDrivetrain dr) dr T) (hb : Reachable b) :
    Solves (b.setDrivetrain dr') dr' T' := by
  have hmem : ∀ m ∈ dr'.modules, m ∈ dr.modules := by
    intro m hm
    obtain ⟨j, rfl⟩ := List.mem_iff_get.mp hm
    exact List.mem_iff_get.mpr ⟨e j, (hmod j).symm⟩
  refine (solves_iff (setDrivetrain_reachable hb dr') ⟨rfl, h.ready.counts, h.ready.size⟩
    fun m hm => h.radius m (hmem m hm)).mpr ?_
  obtain ⟨h1, h2, h3, h4, h5, h6⟩ := h.obeys
  refine ⟨?_, fun n hn => ?_, ?_, fun s hs' m hm g' hg' => ?_, ?_, ?_⟩
  · rw [hs, hdt]; exact h1
  · rw [hs]
    exact (dynamics_permuted dr dr' hmass hmoi e hmod _ _ _ (hF n)).mpr (h2 n hn)
  · rw [hdt]; exact h3
  · obtain ⟨g, hg, hle⟩ := hgap g' hg'
    rw [hdt]
    exact (h4 s hs' m (hmem m hm) g hg).trans hle
  · rw [hs]; exact h5
  · rw [hs]; exact h6

/-- Modules in a rectangle: two `x` and two `y` coordinates, each occurring. -/
structure Rectangular (dr : SwerveDrivetrain ℝ) (x₁ x₂ y₁ y₂ : ℝ) : Prop where
  x : ∀ m ∈ dr.modules, m.translation.x = x₁ ∨ m.translation.x = x₂
  y : ∀ m ∈ dr.modules, m.translation.y = y₁ ∨ m.translation.y = y₂
  x₁ : ∃ m ∈ dr.modules, m.translation.x = x₁
  x₂ : ∃ m ∈ dr.modules, m.translation.x = x₂
  y₁ : ∃ m ∈ dr.modules, m.translation.y = y₁
  y₂ : ∃ m ∈ dr.modules, m.translation.y = y₂

/-- If neighbours agree all agree. -/
theorem neighbours_agree {α β : Type} (f : α → β) (l : List α)
    (h : ∀ a b, (a, b) ∈ l.zip l.tail → f a = f b) : ∀ a ∈ l, ∀ b ∈ l, f a = f b := by
  induction l with
  | nil => simp
  | cons x l ih =>
    cases l with
    | nil => simp
    | cons y l =>
      have hxy : f x = f y := h x y (by simp)
      have ih' := ih fun a b hab => h a b (by
        simp only [List.tail_cons, List.zip_cons_cons] at hab ⊢
        exact List.mem_cons_of_mem _ hab)
      have hy : ∀ a ∈ x :: y :: l, f a = f y := by
        intro a ha
        rcases List.mem_cons.mp ha with rfl | ha
        · exact hxy
        · exact ih' a ha y (by simp)
      intro a ha b hb
      rw [hy a ha, hy b hb]

theorem Rectangular.gap {dr : SwerveDrivetrain ℝ} {x₁ x₂ y₁ y₂ : ℝ}
    (h : Rectangular dr x₁ x₂ y₁ y₂) (g : ℝ) :
    Gap dr g ↔ g ≠ 0 ∧ (g = |x₁ - x₂| ∨ g = |y₁ - y₂|) := by
  have hmem : ∀ a b, (a, b) ∈ dr.modules.zip dr.modules.tail → a ∈ dr.modules ∧ b ∈ dr.modules :=
    fun a b hab => ⟨(List.of_mem_zip hab).1, List.mem_of_mem_tail (List.of_mem_zip hab).2⟩
  unfold Gap
  refine and_congr_right fun hg => ?_
  have two : ∀ {u v p q : ℝ}, u ≠ v → (u = p ∨ u = q) → (v = p ∨ v = q) → |u - v| = |p - q| := by
    intro u v p q huv hu hv
    rcases hu with rfl | rfl <;> rcases hv with rfl | rfl
    · exact absurd rfl huv
    · rfl
    · exact abs_sub_comm _ _
    · exact absurd rfl huv
  constructor
  · rintro ⟨a, b, hab, e | e⟩
    · left
      rw [e]
      exact two (fun hh => hg (by rw [e, hh]; simp)) (h.x a (hmem a b hab).1) (h.x b (hmem a b hab).2)
    · right
      rw [e]
      exact two (fun hh => hg (by rw [e, hh]; simp)) (h.y a (hmem a b hab).1) (h.y b (hmem a b hab).2)
  · rintro (e | e)
    · by_contra hno
      push Not at hno
      have hag := neighbours_agree (fun m : SwerveModule ℝ => m.translation.x) dr.modules (by
        intro a b hab
        by_contra hne
        exact (hno a b hab).1 (by
          rw [e]
          exact (two hne (h.x a (hmem a b hab).1) (h.x b (hmem a b hab).2)).symm))
      obtain ⟨m₁, hm₁, e₁⟩ := h.x₁
      obtain ⟨m₂, hm₂, e₂⟩ := h.x₂
      have := hag m₁ hm₁ m₂ hm₂
      simp only [e₁, e₂] at this
      exact hg (by rw [e, this]; simp)
    · by_contra hno
      push Not at hno
      have hag := neighbours_agree (fun m : SwerveModule ℝ => m.translation.y) dr.modules (by
        intro a b hab
        by_contra hne
        exact (hno a b hab).2 (by
          rw [e]
          exact (two hne (h.y a (hmem a b hab).1) (h.y b (hmem a b hab).2)).symm))
      obtain ⟨m₁, hm₁, e₁⟩ := h.y₁
      obtain ⟨m₂, hm₂, e₂⟩ := h.y₂
      have := hag m₁ hm₁ m₂ hm₂
      simp only [e₁, e₂] at this
      exact hg (by rw [e, this]; simp)

/-- C39 holds for robots whose modules form a rectangle (as almost all do). -/
theorem C39_rectangle_partial (b : Builder ℝ) (dr dr' : SwerveDrivetrain ℝ)
    (hmass : dr'.mass = dr.mass) (hmoi : dr'.moi = dr.moi)
    (e : Fin dr'.modules.length ≃ Fin dr.modules.length)
    (hmod : ∀ j, dr'.modules[j] = dr.modules[e j]) (x₁ x₂ y₁ y₂ : ℝ)
    (hrect : Rectangular dr x₁ x₂ y₁ y₂) (T T' : Traj)
    (hs : T'.state = T.state) (hdt : T'.dt = T.dt)
    (hF : ∀ n, ∀ j : Fin dr'.modules.length, T'.force n j = T.force n (e j)) (hb : Reachable b) :
    Solves (b.setDrivetrain dr) dr T ↔ Solves (b.setDrivetrain dr') dr' T' := by
  have hmem : ∀ m, m ∈ dr'.modules ↔ m ∈ dr.modules := by
    intro m
    simp only [List.mem_iff_get]
    constructor
    · rintro ⟨j, rfl⟩
      exact ⟨e j, (hmod j).symm⟩
    · rintro ⟨j, rfl⟩
      obtain ⟨i, rfl⟩ := e.surjective j
      exact ⟨i, hmod i⟩
  have hrect' : Rectangular dr' x₁ x₂ y₁ y₂ := by
    obtain ⟨h1, h2, h3, h4, h5, h6⟩ := hrect
    constructor <;> simp only [hmem] <;> assumption
  have hg : ∀ g, Gap dr g ↔ Gap dr' g := fun g => by rw [hrect.gap, hrect'.gap]
  constructor
  · intro h
    exact C39_partial b dr dr' hmass hmoi e hmod (fun g hg' => ⟨g, (hg g).mpr hg', le_rfl⟩) T T' hs
      hdt hF h hb
  · intro h
    refine C39_partial b dr' dr hmass.symm hmoi.symm e.symm (fun j => ?_)
      (fun g hg' => ⟨g, (hg g).mp hg', le_rfl⟩) T' T hs.symm hdt.symm (fun n j => ?_) h hb
    · obtain ⟨i, rfl⟩ := e.surjective j
      simp only [Equiv.symm_apply_apply]
      exact (hmod i).symm
    · obtain ⟨i, rfl⟩ := e.surjective j
      simp only [Equiv.symm_apply_apply]
      exact (hF n i).symm

/-- The demonstration robot is rectangular. -/
example : Rectangular demoRobot 1 (-1) 1 (-1) := by
  constructor <;> simp [demoRobot]

/-- Three modules in a row, at the given positions. -/
noncomputable def rowRobot (a b c : ℝ) : SwerveDrivetrain ℝ where
  mass := 1
  moi := 1
  modules := [⟨⟨a, 0⟩, 1, 1, 1⟩, ⟨⟨b, 0⟩, 1, 1, 1⟩, ⟨⟨c, 0⟩, 1, 1, 1⟩]

/-- Standing still for two seconds. -/
noncomputable def restTraj : Traj where
  state _ := ⟨0, 1, 0, 0, 0, 0⟩
  force _ _ := 0
  dt _ := 2

theorem row_gap (a b c g : ℝ) : Gap (rowRobot a b c) g ↔ g ≠ 0 ∧ (g = |a - b| ∨ g = |b - c|) := by
  unfold Gap
  refine and_congr_right fun hg => ?_
  simp only [rowRobot, List.tail_cons, List.zip_cons_cons, List.zip_nil_right, List.mem_cons,
    List.not_mem_nil, or_false, Prod.mk.injEq]
  constructor
  · rintro ⟨m, m', (⟨rfl, rfl⟩ | ⟨rfl, rfl⟩), h⟩
    · left; rcases h with h | h
      · exact h
      · simp at h; exact absurd h hg
    · right; rcases h with h | h
      · exact h
      · simp at h; exact absurd h hg
  · rintro (rfl | rfl)
    · exact ⟨_, _, .inl ⟨rfl, rfl⟩, .inl rfl⟩
    · exact ⟨_, _, .inr ⟨rfl, rfl⟩, .inl rfl⟩

/-- Two waypoints without requirements. -/
noncomputable def restOps : List (Op ℝ) :=
  [.wptInitialGuessPoint 1 originPose, .controlIntervalCounts [1]]

noncomputable def restBuilder : Builder ℝ := run true restOps Builder.new

/-- C39 is false as stated: with the modules at 0, 1, 3 a control interval may last one second, with
the same modules in the order 0, 3, 1 it may last two. -/
theorem C39_refuted : ∃ (b : Builder ℝ) (dr dr' : SwerveDrivetrain ℝ) (T : Traj), Reachable b ∧
    dr.mass = dr'.mass ∧ dr.moi = dr'.moi ∧ dr.modules.Perm dr'.modules ∧
    Solves (b.setDrivetrain dr) dr T ∧
    ∀ T', T'.dt = T.dt → ¬ Solves (b.setDrivetrain dr') dr' T' := by
  have hreach : Reachable restBuilder := ⟨true, restOps, rfl⟩
  obtain ⟨b1, e1, t1⟩ := C12_wpt_guess (Builder.new : Builder ℝ) ⟨true, [], rfl⟩ 1 (by norm_num)
    originPose
  have r1 := run_snoc (b := (Builder.new : Builder ℝ)) (asserts := true) (ops := []) rfl
    (op := .wptInitialGuessPoint 1 originPose) e1
  have hb : restBuilder = b1.setControlIntervalCounts [1] :=
    (run_snoc r1 (op := .controlIntervalCounts [1]) rfl).symm
  have hcounts : restBuilder.controlIntervalCounts = [1] := by rw [hb]; rfl
  have hw : (table restBuilder).waypoints = 2 := by
    rw [hb]
    change (table b1).waypoints = 2
    rw [t1]
    simp [PathTable.guessAt, PathTable.reach, table, Builder.new]
  have hi : ∀ w, (table restBuilder).instant w = [] := by
    intro w
    rw [hb]
    change (table b1).instant w = []
    rw [t1]
    simp [PathTable.guessAt, PathTable.reach, table, Builder.new]
  have hc : ∀ s, (table restBuilder).continuous s = [] := by
    intro s
    rw [hb]
    change (table b1).continuous s = []
    rw [t1]
    simp [PathTable.guessAt, PathTable.reach, table, Builder.new]
  have hready : ∀ dr, Ready (restBuilder.setDrivetrain dr) dr := by
    intro dr
    refine ⟨rfl, ?_, ?_⟩
    · change restBuilder.controlIntervalCounts.length < (table restBuilder).waypoints
      rw [hcounts, hw]; simp
    · change sampleCount restBuilder.controlIntervalCounts < _
      rw [hcounts]; simp [sampleCount]
  have hrad : ∀ a b c, ∀ m ∈ (rowRobot a b c).modules, m.wheelRadius ≠ 0 := by
    intro a b c m hm
    simp only [rowRobot, List.mem_cons, List.not_mem_nil, or_false] at hm
    rcases hm with rfl | rfl | rfl <;> norm_num
  refine ⟨restBuilder, rowRobot 0 3 1, rowRobot 0 1 3, restTraj, hreach, rfl, rfl, ?_, ?_, ?_⟩
  · exact List.Perm.cons _ (List.Perm.swap _ _ _)
  · refine (solves_iff (setDrivetrain_reachable hreach _) (hready _) (hrad _ _ _)).mpr ?_
    constructor
    · intro s hs n hn
      constructor <;> simp [restTraj, unitVec]
    · intro n hn
      refine ⟨by simp [restTraj], by simp [restTraj, torque], ?_, ?_⟩
      · intro m hm
        simp only [restTraj, wheelVelocity, maxSpeed, mul_zero, zero_mul, Complex.ofReal_zero,
          add_zero, norm_zero]
        exact abs_nonneg _
      · intro j
        simp [restTraj, maxForce]
    · intro s hs
      simp [restTraj]
    · intro s hs m hm g hg
      rw [row_gap] at hg
      simp only [rowRobot, List.mem_cons, List.not_mem_nil, or_false] at hm
      rcases hg.2 with rfl | rfl <;> rcases hm with rfl | rfl | rfl <;> norm_num [restTraj]
    · intro w hw' c hcw
      have : (table restBuilder).instant w = [] := hi w
      change c ∈ (table restBuilder).instant w at hcw
      rw [this] at hcw
      simp at hcw
    · intro s hs c hcs
      change c ∈ (table restBuilder).continuous s at hcs
      rw [hc s] at hcs
      simp at hcs
  · intro T' hdt h
    have := h.obeys.stepCap 0 (by
      change 0 < restBuilder.controlIntervalCounts.length
      rw [hcounts]; simp) ⟨⟨0, 0⟩, 1, 1, 1⟩ (by simp [rowRobot]) 1 (by rw [row_gap]; norm_num)
    rw [hdt] at this
    norm_num [restTraj] at this

end Trajopt.Props
