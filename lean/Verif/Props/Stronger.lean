import Verif.Props.Throttle
import Verif.Spec.Stronger

/-!
# C90 Better drivetrains (real arithmetic)
-/

set_option autoImplicit false

namespace Trajopt

open Spec Builder Props

/-- Gaps only depend on where the modules are. -/
theorem Props.gap_places (dr : SwerveDrivetrain ℝ) (g : ℝ) :
    Gap dr g ↔ g ≠ 0 ∧ ∃ p q, (p, q) ∈ (dr.modules.map (·.translation)).zip
      (dr.modules.map (·.translation)).tail ∧ (g = |p.x - q.x| ∨ g = |p.y - q.y|) := by
  rw [← List.map_tail, List.zip_map]
  refine and_congr_right fun _ => ⟨?_, ?_⟩
  · rintro ⟨a, b, hab, h⟩
    exact ⟨_, _, List.mem_map.mpr ⟨(a, b), hab, rfl⟩, h⟩
  · rintro ⟨p, q, hpq, h⟩
    obtain ⟨⟨a, b⟩, hab, e⟩ := List.mem_map.mp hpq
    obtain ⟨rfl, rfl⟩ := Prod.mk.inj e
    exact ⟨a, b, hab, h⟩

theorem Spec.Stronger.length {c : ℝ} {dr dr' : SwerveDrivetrain ℝ} (h : Stronger c dr dr') :
    dr.modules.length = dr'.modules.length := h.modules.length_eq

theorem Spec.Stronger.places {c : ℝ} {dr dr' : SwerveDrivetrain ℝ} (h : Stronger c dr dr') :
    dr'.modules.map (·.translation) = dr.modules.map (·.translation) := by
  have key : ∀ l l', List.Forall₂ (fun m m' : SwerveModule ℝ => m'.translation = m.translation ∧
      m'.wheelRadius * m'.wheelMaxAngularVelocity = m.wheelRadius * m.wheelMaxAngularVelocity ∧
      c * maxForce m ≤ maxForce m') l l' → l'.map (·.translation) = l.map (·.translation) := by
    intro l l' h
    induction h with
    | nil => rfl
    | cons h1 _ ih => simp only [List.map_cons, h1.1, ih]
  exact key _ _ h.modules

theorem Spec.Stronger.at {c : ℝ} {dr dr' : SwerveDrivetrain ℝ} (h : Stronger c dr dr') (j : ℕ)
    (hj : j < dr.modules.length) (hj' : j < dr'.modules.length) :
    dr'.modules[j].translation = dr.modules[j].translation ∧
    dr'.modules[j].wheelRadius * dr'.modules[j].wheelMaxAngularVelocity =
      dr.modules[j].wheelRadius * dr.modules[j].wheelMaxAngularVelocity ∧
    c * maxForce dr.modules[j] ≤ maxForce dr'.modules[j] :=
  (List.forall₂_iff_get.mp h.modules).2 j hj hj'

theorem Spec.Stronger.dynamics {c : ℝ} (hc : 0 ≤ c) {dr dr' : SwerveDrivetrain ℝ} (h : Stronger c dr dr')
    {s : State} {F : ℕ → ℂ} (hd : Dynamics dr s F) : Dynamics dr' s (fun j => c * F j) := by
  have hlen := h.length
  constructor
  · rw [h.mass, ← Finset.mul_sum]
    push_cast
    rw [mul_assoc, ← hd.force]
    congr 1
    exact Fintype.sum_equiv (finCongr hlen.symm) _ _ fun _ => rfl
  · rw [h.moi, mul_assoc, ← hd.torque, Finset.mul_sum]
    refine Fintype.sum_equiv (finCongr hlen.symm) _ _ fun j => ?_
    have e := (h.at j (by rw [hlen]; exact j.2) j.2).1
    simp only [lever, Spec.torque, finCongr_apply, Fin.getElem_fin, Fin.val_cast] at e ⊢
    rw [e, mul_left_comm, Complex.im_ofReal_mul]
  · intro m hm
    obtain ⟨j, hj, rfl⟩ := List.mem_iff_getElem.mp hm
    obtain ⟨e1, e2, -⟩ := h.at j (hlen ▸ hj) hj
    have := hd.speed _ (List.getElem_mem (hlen ▸ hj))
    rwa [wheelVelocity, maxSpeed, e1, e2]
  · intro j
    have hj : j.1 < dr.modules.length := by rw [hlen]; exact j.2
    have e3 := (h.at j hj j.2).2.2
    have := hd.limit ⟨j, hj⟩
    rw [norm_mul, Complex.norm_real, Real.norm_of_nonneg hc]
    exact (mul_le_mul_of_nonneg_left this hc).trans e3

theorem Spec.Stronger.cap {c : ℝ} {dr dr' : SwerveDrivetrain ℝ} (h : Stronger c dr dr') {d : ℝ}
    (hd : ∀ m ∈ dr.modules, ∀ g, Gap dr g → d * m.wheelRadius * m.wheelMaxAngularVelocity ≤ g) :
    ∀ m ∈ dr'.modules, ∀ g, Gap dr' g → d * m.wheelRadius * m.wheelMaxAngularVelocity ≤ g := by
  intro m hm g hg
  rw [gap_places, h.places, ← gap_places] at hg
  obtain ⟨j, hj, rfl⟩ := List.mem_iff_getElem.mp hm
  have hj' : j < dr.modules.length := by rw [h.length]; exact hj
  have := hd _ (List.getElem_mem hj') g hg
  rwa [mul_assoc, (h.at j hj' hj).2.1, ← mul_assoc]

namespace Props

/-- C90, what holds: whatever a robot can drive, a stronger one can drive in the same way: with more torque or less
mass.  Missing: faster wheels. -/
theorem C90_stronger_partial (c : ℝ) (hc : 0 ≤ c) (b : Builder ℝ) (dr dr' : SwerveDrivetrain ℝ) (T : Traj)
    (h : Solves b dr T) (hs : Stronger c dr dr') (hr : ∀ m ∈ dr'.modules, m.wheelRadius ≠ 0) :
    Solves (b.setDrivetrain dr') dr' (T.push c) := by
  have hb : Reachable (b.setDrivetrain dr') := by
    obtain ⟨asserts, ops, e⟩ := h.reachable
    exact ⟨asserts, _, run_snoc e (op := .setDrivetrain dr') rfl⟩
  have hready : Ready (b.setDrivetrain dr') dr' := ⟨rfl, h.ready.counts, h.ready.size⟩
  refine (solves_iff hb hready hr).mpr ?_
  obtain ⟨o1, o2, o3, o4, o5, o6⟩ := h.obeys
  exact ⟨o1, fun n hn => hs.dynamics hc (o2 n hn), o3, fun s hs' => hs.cap (o4 s hs'), o5, o6⟩

/-- C90, what holds: and its fastest trajectory takes no longer. -/
theorem C90_fastest_partial (c : ℝ) (hc : 0 ≤ c) (b : Builder ℝ) (dr dr' : SwerveDrivetrain ℝ) (T T' : Traj)
    (h : Fastest b dr T) (hs : Stronger c dr dr') (hr : ∀ m ∈ dr'.modules, m.wheelRadius ≠ 0)
    (h' : Fastest (b.setDrivetrain dr') dr' T') :
    timeTaken (table b).counts T' ≤ timeTaken (table b).counts T :=
  h'.least (T.push c) (C90_stronger_partial c hc b dr dr' T h.solves hs hr)

/-- From standstill to standstill, one metre in two control intervals. -/
noncomputable def hopOps : List (Op ℝ) :=
  [.poseWpt 0 0 0 0, .poseWpt 1 1 0 0, .wptConstraint 0 (.linearVelocityMaxMagnitude 0),
    .wptConstraint 1 (.linearVelocityMaxMagnitude 0), .controlIntervalCounts [2]]

theorem hop_table (dr : SwerveDrivetrain ℝ) :
    let b := run true (.setDrivetrain dr :: hopOps) Builder.new
    Ready b dr ∧ (table b).counts = [2] ∧ (table b).continuous 0 = [] ∧
    (table b).instant 0 = [.poseEquality 0 0 0, .linearVelocityMaxMagnitude 0] ∧
    (table b).instant 1 = [.poseEquality 1 0 0, .linearVelocityMaxMagnitude 0] := by
  intro b
  obtain ⟨e, hr⟩ : table b = PathTable.empty.afterAll (.setDrivetrain dr :: hopOps) ∧ Ready b dr := by
    refine ready_of ?_ _ rfl ?_ ?_ ?_ <;>
    simp [hopOps, PathTable.AcceptsAll, PathTable.Accepts, PathTable.afterAll, PathTable.after,
      PathTable.empty, PathTable.reach, PathTable.requireAt, PathTable.guessAt, sampleCount]
  refine ⟨hr, ?_⟩
  rw [e]
  simp [hopOps, PathTable.afterAll, PathTable.after,
    PathTable.empty, PathTable.reach, PathTable.requireAt, PathTable.guessAt]

theorem hop_start {dr : SwerveDrivetrain ℝ} (s : State)
    (hs : ∀ c ∈ (table (run true (.setDrivetrain dr :: hopOps) Builder.new)).instant 0, Meaning c s) :
    s.pos = 0 ∧ s.vel = 0 := by
  rw [(hop_table dr).2.2.2.1] at hs
  refine ⟨?_, ?_⟩
  · rw [(hs (.poseEquality 0 0 0) (by simp)).1]; apply Complex.ext <;> simp [vec]
  · have := hs (.linearVelocityMaxMagnitude 0) (by simp)
    simpa [Meaning] using this

theorem hop_stop {dr : SwerveDrivetrain ℝ} (s : State)
    (hs : ∀ c ∈ (table (run true (.setDrivetrain dr :: hopOps) Builder.new)).instant 1, Meaning c s) :
    s.pos = 1 ∧ s.vel = 0 := by
  rw [(hop_table dr).2.2.2.2] at hs
  refine ⟨?_, ?_⟩
  · rw [(hs (.poseEquality 1 0 0) (by simp)).1]; apply Complex.ext <;> simp [vec]
  · have := hs (.linearVelocityMaxMagnitude 0) (by simp)
    simpa [Meaning] using this

theorem demo_uniform : Uniform demoRobot 2 2 where
  some := by simp [demoRobot]
  centred := by simp [Centred, demoRobot, vec, Complex.ext_iff]
  mass := by norm_num [demoRobot]
  force_pos := by norm_num
  radius := demo_radius
  force := by
    intro m hm
    simp only [demoRobot, List.mem_cons, List.not_mem_nil, or_false] at hm
    rcases hm with rfl | rfl | rfl | rfl <;> norm_num
  speed := by
    intro m hm
    simp only [demoRobot, List.mem_cons, List.not_mem_nil, or_false] at hm
    rcases hm with rfl | rfl | rfl | rfl <;> norm_num

theorem demo_top : topAcceleration demoRobot = 2 := by
  simp only [topAcceleration, demoRobot, List.map_cons, List.map_nil, List.sum_cons, List.sum_nil]
  norm_num

/-- The demonstration robot manages it, in its best time. -/
theorem hop_best : (∃ T, Fastest (run true (.setDrivetrain demoRobot :: hopOps) Builder.new) demoRobot T) ∧
    ∀ T, Fastest (run true (.setDrivetrain demoRobot :: hopOps) Builder.new) demoRobot T →
      T.dt 0 = √(1 / 2) ∧ ∀ n ≤ 2, (T.state n).vel = (2 * √(1 / 2) * (min n (2 - n) : ℕ) : ℝ) := by
  obtain ⟨hr, hc, hco, hi0, hi1⟩ := hop_table demoRobot
  suffices hbest : (∃ T, Fastest (run true (.setDrivetrain demoRobot :: hopOps) Builder.new) demoRobot T) ∧
      ∀ T, Fastest (run true (.setDrivetrain demoRobot :: hopOps) Builder.new) demoRobot T →
        timeTaken (table (run true (.setDrivetrain demoRobot :: hopOps) Builder.new)).counts T =
          (2 : ℕ) * √(‖(1 : ℂ) - 0‖ / (topAcceleration demoRobot * (2 ^ 2 / 4 : ℕ))) ∧
        ∀ n ≤ 2, (T.state n).vel =
          (topAcceleration demoRobot * √(‖(1 : ℂ) - 0‖ / (topAcceleration demoRobot * (2 ^ 2 / 4 : ℕ))) *
            (min n (2 - n) : ℕ) : ℝ) * (((1 : ℂ) - 0) / (‖(1 : ℂ) - 0‖ : ℝ)) by
    have e : ‖(1 : ℂ) - 0‖ / (topAcceleration demoRobot * (2 ^ 2 / 4 : ℕ)) = 1 / 2 := by
      rw [demo_top]; norm_num
    rw [e, demo_top, hc] at hbest
    refine ⟨hbest.1, fun T h => ?_⟩
    obtain ⟨ht, hv⟩ := hbest.2 T h
    refine ⟨by simpa [timeTaken] using ht, fun n hn => ?_⟩
    rw [hv n hn]
    simp
  have h1 : √(‖(1 : ℂ) - 0‖ / (topAcceleration demoRobot * (2 ^ 2 / 4 : ℕ))) ≤ 1 := by
    rw [demo_top, Real.sqrt_le_left (by norm_num)]
    norm_num
  refine (C85_fastest demoRobot 2 2 demo_uniform _ ⟨true, _, rfl⟩ hr 2 le_rfl hc hco 0 1 0
    (by norm_num) hop_start hop_stop ?_ ?_ _ rfl ?_ ?_)
  · intro a c hcm
    rw [hi0] at hcm
    simp only [List.mem_cons, List.not_mem_nil, or_false] at hcm
    rcases hcm with rfl | rfl
    · exact ⟨by apply Complex.ext <;> simp [vec], .inl rfl⟩
    · simp [Meaning]
  · intro a c hcm
    rw [hi1] at hcm
    simp only [List.mem_cons, List.not_mem_nil, or_false] at hcm
    rcases hcm with rfl | rfl
    · exact ⟨by apply Complex.ext <;> simp [vec], .inl rfl⟩
    · simp [Meaning]
  · generalize √(‖(1 : ℂ) - 0‖ / (topAcceleration demoRobot * (2 ^ 2 / 4 : ℕ))) = x at h1 ⊢
    rw [demo_top]
    norm_num
    linarith
  · intro g hg
    rw [demo_gap g hg]
    linarith

theorem hop_demo : ∃ T, Fastest (run true (.setDrivetrain demoRobot :: hopOps) Builder.new) demoRobot T := hop_best.1

/-- C90 is false as stated: a path that a robot can drive cannot be driven once its motors turn twice as fast.
(The cap on the time step leaves too little time to speed up.) -/
theorem C90_refuted : ∃ (dr : SwerveDrivetrain ℝ) (ops : List (Op ℝ)),
    (∃ T, Solves (run true (.setDrivetrain dr :: ops) Builder.new) dr T) ∧
    ¬ ∃ T, Solves (run true (.setDrivetrain (geared 2 dr) :: ops) Builder.new) (geared 2 dr) T := by
  refine ⟨demoRobot, hopOps, hop_demo.imp fun T h => h.solves, ?_⟩
  rintro ⟨T, h⟩
  obtain ⟨-, hc, -, hi0, hi1⟩ := hop_table (geared 2 demoRobot)
  have hs : 0 < (table (run true (.setDrivetrain (geared 2 demoRobot) :: hopOps) Builder.new)).counts.length := by
    rw [hc]; simp
  have hd := (C85_distance _ _ T h (by norm_num [geared, demoRobot]) 0 hs).2
  have e0 := hop_start _ (h.obeys.instant 0 (Nat.zero_le _))
  have e1 := hop_stop _ (h.obeys.instant 1 hs)
  have hcap := h.obeys.stepCap 0 hs ⟨⟨1, 1⟩, 1, 2 * 2, 2⟩ (by simp [geared, demoRobot]) 2
    ((gap_places _ _).mpr ⟨by norm_num, ⟨1, 1⟩, ⟨1, -1⟩, by simp [geared, demoRobot], .inr (by norm_num)⟩)
  have ht := h.obeys.time 0 hs
  have hA : topAcceleration (geared 2 demoRobot) = 2 := by
    simp only [topAcceleration, geared, demoRobot, List.map_cons, List.map_nil, List.sum_cons, List.sum_nil]
    norm_num
  have hN : (table (run true (.setDrivetrain (geared 2 demoRobot) :: hopOps) Builder.new)).counts[0] = 2 := by
    simp [hc]
  have := hd e0.2 e1.2
  rw [e0.1, e1.1, hA, hN] at this
  norm_num at this hcap
  nlinarith

/-- Half the weight, half again the torque: the same path, no slower. -/
example : ∃ T T', Fastest (run true (.setDrivetrain demoRobot :: hopOps) Builder.new) demoRobot T ∧
    Solves ((run true (.setDrivetrain demoRobot :: hopOps) Builder.new).setDrivetrain
      ⟨2, 1 / 2, [⟨⟨1, 1⟩, 1, 2, 3⟩, ⟨⟨1, -1⟩, 1, 2, 3⟩, ⟨⟨-1, 1⟩, 1, 2, 3⟩, ⟨⟨-1, -1⟩, 1, 2, 3⟩]⟩)
      ⟨2, 1 / 2, [⟨⟨1, 1⟩, 1, 2, 3⟩, ⟨⟨1, -1⟩, 1, 2, 3⟩, ⟨⟨-1, 1⟩, 1, 2, 3⟩, ⟨⟨-1, -1⟩, 1, 2, 3⟩]⟩ T' := by
  obtain ⟨T, h⟩ := hop_demo
  refine ⟨T, T.push (1 / 2), h, C90_stronger_partial (1 / 2) (by norm_num) _ demoRobot _ T h.solves
    ⟨by norm_num [demoRobot], by norm_num [demoRobot], ?_⟩ ?_⟩
  · simp only [demoRobot, maxForce, List.forall₂_cons, List.Forall₂.nil, and_true]
    norm_num
  · intro m hm
    simp only [List.mem_cons, List.not_mem_nil, or_false] at hm
    rcases hm with rfl | rfl | rfl | rfl <;> norm_num

end Props

end Trajopt
