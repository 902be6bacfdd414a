import Verif.Spec.Turns
import Verif.Props.Examples

/-!
# C128 Headings count up to full turns
-/

set_option autoImplicit false

namespace Trajopt.Props

open Spec Builder

variable {D : Type}

/-- The waypoint with other constraints. -/
def recast (f : Constraint D → Constraint D) (w : Waypoint D) : Waypoint D :=
  ⟨w.waypointConstraints.map f, w.segmentConstraints.map f⟩

/-- The path with other constraints. -/
def recastPath (f : Constraint D → Constraint D) (p : SwervePath D) : SwervePath D :=
  { p with waypoints := p.waypoints.map (recast f) }

/-- The builder with other constraints. -/
def recastB (f : Constraint D → Constraint D) (b : Builder D) : Builder D := { b with path := recastPath f b.path }

/-- The outcome with other constraints. -/
def recastOut (f : Constraint D → Constraint D) (o : Out D) : Out D := (recastB f o.1, o.2)

variable {f : Constraint D → Constraint D}

theorem recast_andThen {o : Out D} {k k' : Builder D → Out D}
    (hk : ∀ b, k' (recastB f b) = recastOut f (k b)) : andThen (recastOut f o) k' = recastOut f (andThen o k) := by
  obtain ⟨b, _ | e⟩ := o
  · exact hk b
  · rfl

theorem recast_modify (i : ℕ) (k k' : Waypoint D → Waypoint D) (hk : ∀ w, k' (recast f w) = recast f (k w))
    (b : Builder D) : (recastB f b).modifyWpt i k' = recastOut f (b.modifyWpt i k) := by
  unfold modifyWpt
  have : (recastB f b).path.waypoints = b.path.waypoints.map (recast f) := rfl
  rw [this, List.length_map]
  split
  · have e : (b.path.waypoints.map (recast f)).modify i k' = (b.path.waypoints.modify i k).map (recast f) := by
      apply List.ext_getElem?
      intro n
      simp only [List.getElem?_modify, List.getElem?_map]
      split <;> simp [Function.comp_def, hk]
    rw [e]
    rfl
  · rfl

theorem recast_pushWpt (c : Constraint D) (w : Waypoint D) :
    pushWpt (f c) (recast f w) = recast f (pushWpt c w) := by simp [pushWpt, recast]

theorem recast_pushSgmt (c : Constraint D) (w : Waypoint D) :
    pushSgmt (f c) (recast f w) = recast f (pushSgmt c w) := by simp [pushSgmt, recast]

theorem recast_sgmtLoop (c : Constraint D) (n i : ℕ) (b : Builder D) :
    sgmtLoop (f c) n i (recastB f b) = recastOut f (sgmtLoop c n i b) := by
  induction n generalizing i b with
  | zero => rfl
  | succ n ih =>
    simp only [sgmtLoop]
    rw [recast_modify _ _ _ (recast_pushWpt c)]
    refine recast_andThen fun b => ?_
    rw [recast_modify _ _ _ (recast_pushSgmt c)]
    exact recast_andThen fun b => ih _ b

theorem recast_recordAll {rec : Constraint D → Builder D → Out D}
    (hrec : ∀ c b, rec (f c) (recastB f b) = recastOut f (rec c b)) (l : List (Res (Constraint D)))
    (hl : ∀ c, .ok c ∈ l → f c = c) (b : Builder D) :
    recordAll rec l (recastB f b) = recastOut f (recordAll rec l b) := by
  induction l generalizing b with
  | nil => rfl
  | cons r l ih =>
    cases r with
    | error e => rfl
    | ok c =>
      have := hrec c b
      rw [hl c (by simp)] at this
      simp only [recordAll, this]
      exact recast_andThen fun b => ih (fun c hc => hl c (by simp [hc])) b

variable [Dbl D]

theorem recast_loop (n : ℕ) (i : ℤ) (b : Builder D) :
    newWptsLoop n i (recastB f b) = recastB f (newWptsLoop n i b) := by
  induction n generalizing i b with
  | zero => rfl
  | succ n ih =>
    rw [newWptsLoop, newWptsLoop, ← ih]
    simp [recastB, recastPath, recast]

theorem recast_newWpts (k : ℕ) (b : Builder D) : (recastB f b).newWpts k = recastB f (b.newWpts k) := by
  unfold newWpts
  have : (recastB f b).path.waypoints.length = b.path.waypoints.length := List.length_map ..
  rw [this]
  dsimp only
  split
  · exact recast_loop ..
  · rfl

theorem recast_wptConstraint (i : ℕ) (c : Constraint D) (b : Builder D) :
    (recastB f b).wptConstraint i (f c) = recastOut f (b.wptConstraint i c) := by
  unfold wptConstraint
  rw [recast_newWpts, recast_modify _ _ _ (recast_pushWpt c)]

theorem recast_sgmtConstraint (asserts : Bool) (i j : ℕ) (c : Constraint D) (b : Builder D) :
    (recastB f b).sgmtConstraint asserts i j (f c) = recastOut f (b.sgmtConstraint asserts i j c) := by
  unfold sgmtConstraint
  split
  · rfl
  · rw [recast_newWpts, recast_modify _ _ _ (recast_pushWpt c)]
    exact recast_andThen fun b => recast_sgmtLoop ..

theorem recast_wptGuess (i : ℕ) (p : Pose2 D) (b : Builder D) :
    (recastB f b).wptInitialGuessPoint i p = recastOut f (b.wptInitialGuessPoint i p) := by
  unfold wptInitialGuessPoint
  rw [recast_newWpts]
  generalize b.newWpts i = b
  have : (recastB f b).initialGuessPoints = b.initialGuessPoints := rfl
  dsimp only
  rw [this]
  rcases b.initialGuessPoints[i]? with _ | _ | _ <;> rfl

theorem recast_sgmtGuess (i : ℕ) (ps : List (Pose2 D)) (b : Builder D) :
    (recastB f b).sgmtInitialGuessPoints i ps = recastOut f (b.sgmtInitialGuessPoints i ps) := by
  unfold sgmtInitialGuessPoints
  dsimp only
  rw [recast_newWpts]
  generalize b.newWpts _ = b
  have : (recastB f b).initialGuessPoints = b.initialGuessPoints := rfl
  rw [this]
  split <;> rfl

open Classical in
/-- One angle for each direction. -/
noncomputable def standard (h : D) : D := @Classical.epsilon D ⟨h⟩ (SameDirection h)

theorem standard_spec (h : D) : SameDirection h (standard h) :=
  Classical.epsilon_spec (p := SameDirection h) ⟨h, rfl, rfl⟩

theorem standard_eq {h h' : D} (e : SameDirection h h') : standard h' = standard h := by
  have : SameDirection h' = SameDirection h := by
    funext x
    exact propext ⟨fun g => ⟨g.1.trans e.1, g.2.trans e.2⟩, fun g => ⟨g.1.trans e.1.symm, g.2.trans e.2.symm⟩⟩
  unfold standard
  rw [this]

/-- One constraint for those that are the same but for full turns. -/
noncomputable def untwist : Constraint D → Constraint D
  | .poseEquality x y h => .poseEquality x y (standard h)
  | .linearVelocityDirection h => .linearVelocityDirection (standard h)
  | c => c

theorem untwist_eq {c c' : Constraint D} (h : SameButTurns c c') : untwist c' = untwist c := by
  cases h with
  | same => rfl
  | pose x y e => simp only [untwist, standard_eq e]
  | velocity e => simp only [untwist, standard_eq e]

theorem ofXYHeading_eq {h h' : D} (e : SameDirection h h') (x y : D) :
    (Pose2.ofXYHeading x y h' : Pose2 D) = .ofXYHeading x y h := by
  simp only [Pose2.ofXYHeading, Rotation2.ofAngle, e.cos, e.sin]

theorem untwist_apply (c : Constraint D) (s : SampleVars D) : (untwist c).apply s = c.apply s := by
  cases c with
  | poseEquality x y h =>
    simp only [untwist, Constraint.apply]
    simp only [ofXYHeading_eq (standard_spec h)]
  | linearVelocityDirection h =>
    simp only [untwist, Constraint.apply, Rotation2.ofAngle, (standard_spec h).cos, (standard_spec h).sin]
  | _ => rfl

theorem untwist_apply' (c : Constraint D) : (untwist c).apply = c.apply := funext (untwist_apply c)

/-- Full turns do not matter to the constraint that is made, if any is. -/
def Straight (r : Res (Constraint D)) : Prop := ∀ c, r = .ok c → untwist c = c

theorem straight_assert {asserts : Bool} {v : D} {c : Constraint D} (h : untwist c = c) :
    Straight (Constraint.assertNonneg asserts v c) := by
  intro c' hc
  unfold Constraint.assertNonneg at hc
  split at hc
  · cases hc
  · cases hc
    exact h

theorem straight_bind {α : Type} {r : Res α} {k : α → Res (Constraint D)} (h : ∀ a, Straight (k a)) :
    Straight (r >>= k) := by
  cases r with
  | error e => intro c hc; cases hc
  | ok a => exact h a

theorem straight_obstacle (asserts : Bool) (obs : Obstacle D) (bums : List (Obstacle D)) :
    ∀ r ∈ obstacleConstraints asserts obs bums, Straight r := by
  have lp : ∀ s e p d, Straight (D := D) (Constraint.mkLinePoint asserts s e p d) :=
    fun _ _ _ _ => straight_assert rfl
  have pl : ∀ s e p d, Straight (D := D) (Constraint.mkPointLine asserts s e p d) :=
    fun _ _ _ _ => straight_assert rfl
  have pp : ∀ r p d, Straight (D := D) (Constraint.mkPointPoint asserts r p d) := fun _ _ _ => straight_assert rfl
  have he : ∀ bum d p, ∀ r ∈ bumperEdges (D := D) asserts bum d p, Straight r := by
    intro bum d p r hr
    unfold bumperEdges at hr
    split at hr
    · rw [List.mem_singleton.mp hr]
      intro c hc
      cases hc
    · rcases List.mem_append.mp hr with h | h
      · obtain ⟨i, -, rfl⟩ := List.mem_map.mp h
        exact straight_bind fun _ => straight_bind fun _ => lp _ _ _ _
      · split at h
        · rw [List.mem_singleton.mp h]
          exact straight_bind fun _ => straight_bind fun _ => lp _ _ _ _
        · cases h
  have ho : ∀ n o d p, ∀ r ∈ obstacleEdges (D := D) asserts n o d p, Straight r := by
    intro n o d p r hr
    unfold obstacleEdges at hr
    split at hr
    · rcases List.mem_append.mp hr with h | h
      · obtain ⟨i, -, rfl⟩ := List.mem_map.mp h
        exact straight_bind fun _ => straight_bind fun _ => pl _ _ _ _
      · split at h
        · rw [List.mem_singleton.mp h]
          exact straight_bind fun _ => straight_bind fun _ => pl _ _ _ _
        · cases h
    · rw [List.mem_singleton.mp hr]
      exact straight_bind fun _ => pp _ _ _
  induction bums with
  | nil => intro r hr; cases hr
  | cons bum rest ih =>
    intro r hr
    unfold obstacleConstraints at hr
    dsimp only at hr
    split at hr
    · rw [List.mem_singleton.mp hr]
      exact straight_bind fun _ => straight_bind fun _ => pp _ _ _
    · simp only [List.mem_append, List.mem_flatten, List.mem_map] at hr
      rcases hr with (⟨_, ⟨p, -, rfl⟩, h⟩ | ⟨_, ⟨p, -, rfl⟩, h⟩) | h
      · exact he _ _ _ _ h
      · exact ho _ _ _ _ _ h
      · exact ih _ h

/-- Calls that are the same but for full turns, on builders that are. -/
theorem untwist_exec (asserts : Bool) {op op' : Op D} (h : SameCall op op') (b b' : Builder D)
    (hb : recastB untwist b' = recastB untwist b) :
    recastOut untwist (op'.exec asserts b') = recastOut untwist (op.exec asserts b) := by
  have hw : ∀ i c c' (b b' : Builder D), SameButTurns c c' → recastB untwist b' = recastB untwist b →
      recastOut untwist (b'.wptConstraint i c') = recastOut untwist (b.wptConstraint i c) := by
    intro i c c' b b' hc hb
    rw [← recast_wptConstraint, ← recast_wptConstraint, untwist_eq hc, hb]
  have hs : ∀ i j c c' (b b' : Builder D), SameButTurns c c' → recastB untwist b' = recastB untwist b →
      recastOut untwist (b'.sgmtConstraint asserts i j c') = recastOut untwist (b.sgmtConstraint asserts i j c) := by
    intro i j c c' b b' hc hb
    rw [← recast_sgmtConstraint, ← recast_sgmtConstraint, untwist_eq hc, hb]
  have hg : ∀ i p (b b' : Builder D), recastB untwist b' = recastB untwist b →
      recastOut untwist (b'.wptInitialGuessPoint i p) = recastOut untwist (b.wptInitialGuessPoint i p) := by
    intro i p b b' hb
    rw [← recast_wptGuess, ← recast_wptGuess, hb]
  have ht : ∀ (o o' : Out D) (k k' : Builder D → Out D), recastOut untwist o' = recastOut untwist o →
      (∀ b b', recastB untwist b' = recastB untwist b → recastOut untwist (k' b') = recastOut untwist (k b)) →
      recastOut untwist (andThen o' k') = recastOut untwist (andThen o k) := by
    intro o o' k k' ho hk
    obtain ⟨b, e⟩ := o
    obtain ⟨b', e'⟩ := o'
    obtain ⟨h1, rfl⟩ := Prod.mk.inj ho
    cases e' with
    | none => exact hk _ _ h1
    | some e => exact ho
  have hbum : b'.bumpers = b.bumpers := by
    have := congrArg Builder.bumpers hb
    exact this
  cases h with
  | pose i x y e =>
    exact ht _ _ _ _ (hw _ _ _ _ _ (.pose _ _ e) hb) fun b b' h => by rw [ofXYHeading_eq e]; exact hg _ _ _ _ h
  | translation i x y e =>
    exact ht _ _ _ _ (hw _ _ _ _ _ (.same _) hb) fun b b' h => by rw [ofXYHeading_eq e]; exact hg _ _ _ _ h
  | guess i x y e =>
    rw [ofXYHeading_eq e]
    exact hg _ _ _ _ hb
  | wpt i e => exact hw _ _ _ _ _ e hb
  | sgmt i j e => exact hs _ _ _ _ _ _ e hb
  | same =>
    cases op with
    | setDrivetrain d =>
      have := congrArg (setDrivetrain d) hb
      exact Prod.ext this rfl
    | poseWpt i x y h => exact ht _ _ _ _ (hw _ _ _ _ _ (.same _) hb) fun b b' h => hg _ _ _ _ h
    | translationWpt i x y h => exact ht _ _ _ _ (hw _ _ _ _ _ (.same _) hb) fun b b' h => hg _ _ _ _ h
    | wptInitialGuessPoint i p => exact hg _ _ _ _ hb
    | sgmtInitialGuessPoints i ps =>
      simp only [Op.exec]
      rw [← recast_sgmtGuess, ← recast_sgmtGuess, hb]
    | addBumpers o => exact Prod.ext (congrArg (Builder.addBumpers o) hb) rfl
    | wptObstacle i o =>
      simp only [Op.exec, wptObstacle, hbum]
      rw [← recast_recordAll (fun c b => recast_wptConstraint i c b) _
        fun c hc => straight_obstacle _ _ _ _ hc c rfl, hb]
      exact recast_recordAll (fun c b => recast_wptConstraint i c b) _
        (fun c hc => straight_obstacle _ _ _ _ hc c rfl) b
    | sgmtObstacle i j o =>
      simp only [Op.exec, sgmtObstacle, hbum]
      rw [← recast_recordAll (fun c b => recast_sgmtConstraint asserts i j c b) _
        fun c hc => straight_obstacle _ _ _ _ hc c rfl, hb]
      exact recast_recordAll (fun c b => recast_sgmtConstraint asserts i j c b) _
        (fun c hc => straight_obstacle _ _ _ _ hc c rfl) b
    | wptConstraint i c => exact hw _ _ _ _ _ (.same _) hb
    | sgmtConstraint i j c => exact hs _ _ _ _ _ _ (.same _) hb
    | controlIntervalCounts cs => exact Prod.ext (congrArg (setControlIntervalCounts cs) hb) rfl
    | addIntermediateCallback k => exact Prod.ext (congrArg (addIntermediateCallback k) hb) rfl

theorem untwist_run (asserts : Bool) {ops ops' : List (Op D)} (h : SameCalls ops ops') :
    ∀ b b' : Builder D, recastB untwist b' = recastB untwist b →
      recastB untwist (run asserts ops' b') = recastB untwist (run asserts ops b) := by
  induction h with
  | nil => exact fun _ _ hb => hb
  | cons h _ ih => exact fun b b' hb => ih _ _ (congrArg Prod.fst (untwist_exec asserts h b b' hb))

theorem untwist_construct (b : Builder D) (handle : ℤ) :
    Generator.construct (recastB untwist b) handle =
      (fun g => { g with path := recastPath untwist g.path }) <$> Generator.construct b handle := by
  have hw : ∀ N vs, waypointCons (recastPath untwist b.path) N vs = waypointCons b.path N vs := by
    intro N vs
    unfold waypointCons
    congr 1
    congr 1
    funext i
    simp only [recastPath, vat, List.getElem?_map]
    rcases b.path.waypoints[i]? with _ | w
    · rfl
    · simp [recast, List.mapM_map, Function.comp_def, untwist_apply']
  have hs : ∀ N vs, segmentCons (recastPath untwist b.path) N vs = segmentCons b.path N vs := by
    intro N vs
    unfold segmentCons
    congr 1
    congr 1
    funext i
    simp only [recastPath, vat, List.getElem?_map]
    rcases b.path.waypoints[i + 1]? with _ | w
    · rfl
    · simp [recast, List.mapM_map, Function.comp_def, untwist_apply']
  have hd : ∀ vs, dynamicsAt (recastPath untwist b.path) vs = dynamicsAt b.path vs := fun _ => rfl
  simp only [Generator.construct, map_bind, map_pure]
  change (b.calculateInitialGuess >>= _) = _
  simp only [recastB, hw, hs, hd]
  rfl

/-- C128: where headings and directions are given with other full turns, calls end the same way … -/
theorem C128_calls (asserts : Bool) (ops ops' : List (Op D)) (h : SameCalls ops ops') (op op' : Op D)
    (ho : SameCall op op') :
    (op'.exec asserts (run asserts ops' Builder.new)).2 = (op.exec asserts (run asserts ops Builder.new)).2 := by
  have := congrArg Prod.snd (untwist_exec asserts ho _ _ (untwist_run asserts h Builder.new Builder.new rfl))
  exact this

/-- C128: … and the generator has the same problem: variables, start values, constraints and cost. -/
theorem C128_problem (asserts : Bool) (ops ops' : List (Op D)) (h : SameCalls ops ops') (handle : ℤ) :
    SameTask (Generator.construct (run asserts ops Builder.new) handle)
      (Generator.construct (run asserts ops' Builder.new) handle) := by
  have hb := untwist_run asserts h Builder.new Builder.new rfl
  generalize run asserts ops Builder.new = b at *
  generalize run asserts ops' Builder.new = b' at *
  have e := untwist_construct b handle
  have e' := untwist_construct b' handle
  rw [hb, e] at e'
  generalize Generator.construct b handle = r at *
  generalize Generator.construct b' handle = r' at *
  rcases r with x | g <;> rcases r' with x' | g'
  · cases e'
    exact rfl
  · cases e'
  · cases e'
  · have := Except.ok.inj e'
    have h1 := congrArg Generator.problem this
    have h2 := congrArg Generator.vars this
    have h3 := congrArg Generator.N this
    exact ⟨h1.symm, h2.symm, h3.symm⟩

/-- C128: real numbers that differ by full turns have the same direction. -/
theorem C128_turn (h : ℝ) (k : ℤ) : SameDirection h (h + k * (2 * Real.pi)) :=
  ⟨Real.cos_add_int_mul_two_pi h k, Real.sin_add_int_mul_two_pi h k⟩

/-- C128: the same trajectories drive the path, and the same are fastest. -/
theorem C128_solves (asserts : Bool) (ops ops' : List (Op ℝ)) (h : SameCalls ops ops') (dr : SwerveDrivetrain ℝ)
    (T : Traj) :
    (Solves (run asserts ops' Builder.new) dr T ↔ Solves (run asserts ops Builder.new) dr T) ∧
    (Fastest (run asserts ops' Builder.new) dr T ↔ Fastest (run asserts ops Builder.new) dr T) := by
  have hp := C128_problem asserts ops ops' h
  have hb := untwist_run asserts h Builder.new Builder.new rfl
  have hre : Reachable (run asserts ops (Builder.new : Builder ℝ)) := ⟨_, _, rfl⟩
  have hre' : Reachable (run asserts ops' (Builder.new : Builder ℝ)) := ⟨_, _, rfl⟩
  generalize run asserts ops Builder.new = b at *
  generalize run asserts ops' Builder.new = b' at *
  have ec : (table b').counts = (table b).counts := by
    have := congrArg Builder.controlIntervalCounts hb
    exact this
  have ed : (table b').drivetrain = (table b).drivetrain := by
    have := congrArg (fun b : Builder ℝ => b.path.drivetrain) hb
    exact this
  have ew : (table b').waypoints = (table b).waypoints := by
    have := congrArg (fun b : Builder ℝ => b.path.waypoints.length) hb
    simp only [recastB, recastPath, List.length_map] at this
    exact this
  have hr : Ready b' dr ↔ Ready b dr := by
    constructor
    · rintro ⟨r1, r2, r3⟩
      exact ⟨ed ▸ r1, by rw [← ec, ← ew]; exact r2, ec ▸ r3⟩
    · rintro ⟨r1, r2, r3⟩
      exact ⟨ed.trans r1, by rw [ec, ew]; exact r2, by rw [ec]; exact r3⟩
  have hs : ∀ T, Solves b' dr T ↔ Solves b dr T := by
    intro T
    constructor
    · rintro ⟨-, h2, h3, handle, g', σ, e, hf, ha⟩
      have := hp handle
      rw [e] at this
      rcases e' : Generator.construct b handle with x | g
      · rw [e'] at this
        exact this.elim
      · rw [e'] at this
        obtain ⟨p1, p2, -⟩ := this
        exact ⟨hre, hr.mp h2, h3, handle, g, σ, e', p1 ▸ hf, by rw [← ec, ← p2]; exact ha⟩
    · rintro ⟨-, h2, h3, handle, g, σ, e, hf, ha⟩
      have := hp handle
      rw [e] at this
      rcases e' : Generator.construct b' handle with x | g'
      · rw [e'] at this
        exact this.elim
      · rw [e'] at this
        obtain ⟨p1, p2, -⟩ := this
        exact ⟨hre', hr.mpr h2, h3, handle, g', σ, e', p1 ▸ hf, by rw [ec, p2]; exact ha⟩
  refine ⟨hs T, ⟨fun g => ⟨(hs T).mp g.solves, fun T' g' => ?_⟩, fun g => ⟨(hs T).mpr g.solves, fun T' g' => ?_⟩⟩⟩
  · have := g.least T' ((hs T').mpr g')
    rwa [ec] at this
  · rw [ec]
    exact g.least T' ((hs T').mp g')

/-- The first example program with three full turns added to the last heading can still be driven, and is driven fastest by
the same trajectories. -/
example (asserts : Bool) : ∃ T, Fastest (run asserts [.setDrivetrain Examples.robot, .poseWpt 0 0 0 0,
    .poseWpt 1 1 0 (6 * Real.pi), .wptConstraint 0 Examples.noSpeed, .wptConstraint 1 Examples.noSpeed,
    .controlIntervalCounts [40]] Builder.new) shippedRobot T := by
  obtain ⟨T, hT⟩ := (shipped1 asserts).2
  refine ⟨T, (C128_solves asserts Examples.cpp1 _ ?_ _ T).2.mpr hT⟩
  have e : SameDirection (Num.lit 0 : ℝ) (6 * Real.pi) := by
    have := C128_turn (Num.lit 0) 3
    rwa [show (Num.lit 0 : ℝ) + (3 : ℤ) * (2 * Real.pi) = 6 * Real.pi by simp [Num.lit]; ring] at this
  have h0 : (Num.lit 0 : ℝ) = 0 := by simp [Num.lit]
  have h1 : (Num.lit 1 : ℝ) = 1 := by simp [Num.lit]
  have := SameCall.pose 1 (1 : ℝ) 0 e
  unfold Examples.cpp1
  rw [h0] at this
  rw [h0, h1]
  exact .cons (.same _) (.cons (.same _) (.cons this (.cons (.same _) (.cons (.same _) (.cons (.same _) .nil)))))

end Trajopt.Props
