import Verif.Spec.Frame
import Verif.Lemmas.Builder

/-!
# Builder calls commute with changing all points

No builder call looks at coordinates.
-/

set_option autoImplicit false

namespace Trajopt

open Spec Builder

variable {D : Type}

/-- `b'` is `b` with changed contents. -/
structure Rel (R : Change D) (b b' : Builder D) : Prop where
  waypoints : b'.path.waypoints = b.path.waypoints.map fun w =>
    ⟨w.waypointConstraints.map R.con, w.segmentConstraints.map R.con⟩
  drivetrain : b'.path.drivetrain = b.path.drivetrain.map R.drivetrain
  callbacks : b'.path.callbacks = b.path.callbacks
  bumpers : b'.bumpers = b.bumpers.map R.bumper
  guess : b'.initialGuessPoints.map List.length = b.initialGuessPoints.map List.length
  counts : b'.controlIntervalCounts = b.controlIntervalCounts

/-- Changed distances can be added and tested as before. -/
structure Change.Fits [Dbl D] (R : Change D) : Prop where
  add : ∀ a b, R.dist (a + b) = R.dist a + R.dist b
  nonneg : ∀ a, Dbl.le (Num.lit 0) (R.dist a) = Dbl.le (Num.lit 0) a

/-- Related outcomes. -/
def RelOut (R : Change D) (o o' : Out D) : Prop := Rel R o.1 o'.1 ∧ o'.2 = o.2

variable {R : Change D}

theorem RelOut.andThen {o o' : Out D} {f f' : Builder D → Out D} (h : RelOut R o o')
    (hf : ∀ b b', Rel R b b' → RelOut R (f b) (f' b')) :
    RelOut R (Builder.andThen o f) (Builder.andThen o' f') := by
  obtain ⟨b, e⟩ := o
  obtain ⟨b', e'⟩ := o'
  obtain ⟨h1, h2⟩ := h
  dsimp only at h2
  subst h2
  cases e' with
  | none => exact hf _ _ h1
  | some e => exact ⟨h1, rfl⟩

variable [Dbl D]

theorem Rel.loop {n : ℕ} {i : ℤ} {b b' : Builder D} (h : Rel R b b') :
    Rel R (newWptsLoop n i b) (newWptsLoop n i b') := by
  induction n generalizing i b b' with
  | zero => exact h
  | succ n ih =>
    refine ih ⟨?_, h.drivetrain, h.callbacks, h.bumpers, ?_, ?_⟩
    · simp [h.waypoints]
    · simp [h.guess]
    · simp [h.counts]

theorem Rel.newWpts {k : ℕ} {b b' : Builder D} (h : Rel R b b') :
    Rel R (b.newWpts k) (b'.newWpts k) := by
  have hl : b'.path.waypoints.length = b.path.waypoints.length := by rw [h.waypoints]; simp
  unfold Builder.newWpts
  rw [hl]
  dsimp only
  split
  · exact h.loop
  · exact h

omit [Dbl D] in
theorem Rel.modify {i : ℕ} {f f' : Waypoint D → Waypoint D} {b b' : Builder D} (h : Rel R b b')
    (hf : ∀ w, f' ⟨w.waypointConstraints.map R.con, w.segmentConstraints.map R.con⟩ =
      ⟨(f w).waypointConstraints.map R.con, (f w).segmentConstraints.map R.con⟩) :
    RelOut R (b.modifyWpt i f) (b'.modifyWpt i f') := by
  have hl : b'.path.waypoints.length = b.path.waypoints.length := by rw [h.waypoints]; simp
  unfold modifyWpt
  rw [hl]
  split
  · refine ⟨⟨?_, h.drivetrain, h.callbacks, h.bumpers, h.guess, h.counts⟩, rfl⟩
    dsimp only
    rw [h.waypoints]
    apply List.ext_getElem (by simp)
    intro k h1 h2
    simp only [List.getElem_modify, List.getElem_map]
    split
    · exact hf _
    · rfl
  · exact ⟨h, rfl⟩

theorem Rel.wptConstraint {i : ℕ} {c : Constraint D} {b b' : Builder D} (h : Rel R b b') :
    RelOut R (b.wptConstraint i c) (b'.wptConstraint i (R.con c)) :=
  h.newWpts.modify fun w => by simp [pushWpt]

omit [Dbl D] in
theorem Rel.sgmtLoop {c : Constraint D} {n i : ℕ} {b b' : Builder D} (h : Rel R b b') :
    RelOut R (sgmtLoop c n i b) (sgmtLoop (R.con c) n i b') := by
  induction n generalizing i b b' with
  | zero => exact ⟨h, rfl⟩
  | succ n ih =>
    refine (h.modify fun w => by simp [pushWpt]).andThen fun b b' h => ?_
    exact (h.modify fun w => by simp [pushSgmt]).andThen fun b b' h => ih h

theorem Rel.sgmtConstraint {asserts : Bool} {i j : ℕ} {c : Constraint D} {b b' : Builder D}
    (h : Rel R b b') :
    RelOut R (b.sgmtConstraint asserts i j c) (b'.sgmtConstraint asserts i j (R.con c)) := by
  unfold Builder.sgmtConstraint
  split
  · exact ⟨h, rfl⟩
  · exact (h.newWpts.modify fun w => by simp [pushWpt]).andThen fun b b' h => h.sgmtLoop

theorem Rel.wptGuess {i : ℕ} {p p' : Pose2 D} {b b' : Builder D} (h : Rel R b b') :
    RelOut R (b.wptInitialGuessPoint i p) (b'.wptInitialGuessPoint i p') := by
  unfold Builder.wptInitialGuessPoint
  have h := h.newWpts (k := i)
  generalize b.newWpts i = b at h ⊢
  generalize b'.newWpts i = b' at h ⊢
  dsimp only
  have hg : b'.initialGuessPoints[i]?.map List.length = b.initialGuessPoints[i]?.map List.length := by
    rw [← List.getElem?_map, ← List.getElem?_map, h.guess]
  rcases e : b.initialGuessPoints[i]? with _ | (_ | ⟨q, qs⟩) <;>
    rcases e' : b'.initialGuessPoints[i]? with _ | (_ | ⟨q', qs'⟩) <;>
    rw [e, e'] at hg <;> simp at hg
  · exact ⟨h, rfl⟩
  · exact ⟨h, rfl⟩
  · refine ⟨⟨h.waypoints, h.drivetrain, h.callbacks, h.bumpers, ?_, h.counts⟩, rfl⟩
    simp [List.map_set, h.guess, hg]

theorem Rel.sgmtGuess {i : ℕ} {ps : List (Pose2 D)} {b b' : Builder D} (h : Rel R b b') :
    RelOut R (b.sgmtInitialGuessPoints i ps) (b'.sgmtInitialGuessPoints i (ps.map R.pose)) := by
  unfold Builder.sgmtInitialGuessPoints
  dsimp only
  have h := h.newWpts (k := wadd i 1)
  generalize b.newWpts (wadd i 1) = b at h ⊢
  generalize b'.newWpts (wadd i 1) = b' at h ⊢
  generalize wadd i 1 = i
  have hg : b'.initialGuessPoints[i]?.map List.length = b.initialGuessPoints[i]?.map List.length := by
    rw [← List.getElem?_map, ← List.getElem?_map, h.guess]
  rcases e : b.initialGuessPoints[i]? with _ | qs <;>
    rcases e' : b'.initialGuessPoints[i]? with _ | qs' <;>
    rw [e, e'] at hg <;> simp at hg
  · exact ⟨h, rfl⟩
  · refine ⟨⟨h.waypoints, h.drivetrain, h.callbacks, h.bumpers, ?_, h.counts⟩, rfl⟩
    simp [List.map_set, h.guess, hg]

/-- A constraint creation, changed. -/
def resCon (R : Change D) (r : Res (Constraint D)) : Res (Constraint D) := r.map R.con

omit [Dbl D] in
theorem Rel.recordAll {rec : Constraint D → Builder D → Out D}
    (hrec : ∀ c b b', Rel R b b' → RelOut R (rec c b) (rec (R.con c) b'))
    {l : List (Res (Constraint D))} {b b' : Builder D} (h : Rel R b b') :
    RelOut R (recordAll rec l b) (recordAll rec (l.map (resCon R)) b') := by
  induction l generalizing b b' with
  | nil => exact ⟨h, rfl⟩
  | cons r l ih =>
    cases r with
    | error e => exact ⟨h, rfl⟩
    | ok c => exact (hrec c b b' h).andThen fun b b' h => ih h

omit [Dbl D] in
theorem vat_map' {α β : Type} (f : α → β) (l : List α) (i : ℕ) :
    vat (l.map f) i = (vat l i).map f := by
  unfold vat
  rw [List.getElem?_map]
  cases l[i]? <;> rfl

theorem resCon_assert (hR : Change.Fits R) {asserts : Bool} {d : D} {c : Constraint D} :
    resCon R (Constraint.assertNonneg asserts d c) =
      Constraint.assertNonneg asserts (R.dist d) (R.con c) := by
  unfold Constraint.assertNonneg
  rw [hR.nonneg]
  split <;> rfl

theorem bumperEdges_map (hR : Change.Fits R) {asserts : Bool} {bum : List (Translation2 D)} {d : D}
    {p : Translation2 D} :
    bumperEdges asserts (bum.map R.robot) (R.dist d) (R.field p) =
      (bumperEdges asserts bum d p).map (resCon R) := by
  have key : ∀ i j, (do
      let s ← vat (bum.map R.robot) i
      let e ← vat (bum.map R.robot) j
      Constraint.mkLinePoint asserts s e (R.field p) (R.dist d)) =
      resCon R (do
        let s ← vat bum i
        let e ← vat bum j
        Constraint.mkLinePoint asserts s e p d) := by
    intro i j
    rw [vat_map', vat_map']
    rcases vat bum i with e | s
    · rfl
    rcases vat bum j with e | e
    · rfl
    exact (resCon_assert hR (asserts := asserts) (d := d) (c := .linePoint s e p d)).symm
  unfold bumperEdges
  simp only [List.length_map, key]
  split
  · rfl
  · simp only [List.map_append, List.map_map]
    congr 1
    split <;> rfl

theorem obstacleEdges_map (hR : Change.Fits R) {asserts : Bool} {n : ℕ} {obs : List (Translation2 D)} {d : D}
    {r : Translation2 D} :
    obstacleEdges asserts n (obs.map R.field) (R.dist d) (R.robot r) =
      (obstacleEdges asserts n obs d r).map (resCon R) := by
  have key : ∀ i j, (do
      let s ← vat (obs.map R.field) i
      let e ← vat (obs.map R.field) j
      Constraint.mkPointLine asserts (R.robot r) s e (R.dist d)) =
      resCon R (do
        let s ← vat obs i
        let e ← vat obs j
        Constraint.mkPointLine asserts r s e d) := by
    intro i j
    rw [vat_map', vat_map']
    rcases vat obs i with e | s
    · rfl
    rcases vat obs j with e | e
    · rfl
    exact (resCon_assert hR (asserts := asserts) (d := d) (c := .pointLine r s e d)).symm
  have key1 : (do
      let p ← vat (obs.map R.field) 0
      Constraint.mkPointPoint asserts (R.robot r) p (R.dist d)) =
      resCon R (do
        let p ← vat obs 0
        Constraint.mkPointPoint asserts r p d) := by
    rw [vat_map']
    rcases vat obs 0 with e | s
    · rfl
    exact (resCon_assert hR (asserts := asserts) (d := d) (c := .pointPoint r s d)).symm
  unfold obstacleEdges
  simp only [List.length_map, key, key1]
  split
  · simp only [List.map_append, List.map_map]
    congr 1
    split <;> rfl
  · rfl

theorem obstacleConstraints_map (hR : Change.Fits R) {asserts : Bool} {obs : Obstacle D} {bums : List (Obstacle D)} :
    obstacleConstraints asserts (R.obstacle obs) (bums.map R.bumper) =
      (obstacleConstraints asserts obs bums).map (resCon R) := by
  induction bums with
  | nil => rfl
  | cons bum rest ih =>
    have key1 : ∀ d, (do
        let r ← vat (bum.points.map R.robot) 0
        let p ← vat (obs.points.map R.field) 0
        Constraint.mkPointPoint asserts r p (R.dist d)) =
        resCon R (do
          let r ← vat bum.points 0
          let p ← vat obs.points 0
          Constraint.mkPointPoint asserts r p d) := by
      intro d
      rw [vat_map', vat_map']
      rcases vat bum.points 0 with e | r
      · rfl
      rcases vat obs.points 0 with e | p
      · rfl
      exact (resCon_assert hR (asserts := asserts) (d := d) (c := .pointPoint r p d)).symm
    rw [List.map_cons, obstacleConstraints, obstacleConstraints, ih]
    simp only [Change.bumper, Change.obstacle, List.length_map, ← hR.add, key1]
    split
    · rfl
    · simp only [List.map_append, List.map_flatten, List.map_map]
      congr 2
      · congr 1
        exact List.map_congr_left fun p _ => bumperEdges_map hR
      · congr 1
        exact List.map_congr_left fun p _ => obstacleEdges_map hR

/-- Every builder call commutes with the change. -/
theorem Rel.exec (hR : Change.Fits R) {asserts : Bool} {op : Op D} {b b' : Builder D} (h : Rel R b b') :
    RelOut R (op.exec asserts b) ((R.op op).exec asserts b') := by
  cases op with
  | setDrivetrain d =>
    exact ⟨⟨h.waypoints, rfl, h.callbacks, h.bumpers, h.guess, h.counts⟩, rfl⟩
  | poseWpt i x y a => exact h.wptConstraint.andThen fun b b' h => h.wptGuess
  | translationWpt i x y a => exact h.wptConstraint.andThen fun b b' h => h.wptGuess
  | wptInitialGuessPoint i p => exact h.wptGuess
  | sgmtInitialGuessPoints i ps => exact h.sgmtGuess
  | addBumpers o =>
    refine ⟨⟨h.waypoints, h.drivetrain, h.callbacks, ?_, h.guess, h.counts⟩, rfl⟩
    simp [Change.op, Op.exec, Builder.addBumpers, h.bumpers]
  | wptObstacle i o =>
    simp only [Change.op, Op.exec, wptObstacle, h.bumpers, obstacleConstraints_map hR]
    exact h.recordAll fun c b b' h => h.wptConstraint
  | sgmtObstacle i j o =>
    simp only [Change.op, Op.exec, sgmtObstacle, h.bumpers, obstacleConstraints_map hR]
    exact h.recordAll fun c b b' h => h.sgmtConstraint
  | wptConstraint i c => exact h.wptConstraint
  | sgmtConstraint i j c => exact h.sgmtConstraint
  | controlIntervalCounts cs =>
    exact ⟨⟨h.waypoints, h.drivetrain, h.callbacks, h.bumpers, h.guess, rfl⟩, rfl⟩
  | addIntermediateCallback k =>
    refine ⟨⟨h.waypoints, h.drivetrain, ?_, h.bumpers, h.guess, h.counts⟩, rfl⟩
    simp [Change.op, Op.exec, addIntermediateCallback, h.callbacks]

theorem rel_run (hR : Change.Fits R) (asserts : Bool) (ops : List (Op D)) {b b' : Builder D} (h : Rel R b b') :
    Rel R (run asserts ops b) (run asserts (ops.map R.op) b') := by
  induction ops generalizing b b' with
  | nil => exact h
  | cons op ops ih => exact ih (h.exec hR).1

/-- The builder after the changed calls. -/
theorem rel_new (hR : Change.Fits R) (asserts : Bool) (ops : List (Op D)) :
    Rel R (run asserts ops Builder.new) (run asserts (ops.map R.op) Builder.new) :=
  rel_run hR asserts ops ⟨rfl, rfl, rfl, rfl, rfl, rfl⟩

/-- In terms of tables. -/
theorem Rel.table {b b' : Builder D} (h : Rel R b b') :
    (table b').waypoints = (table b).waypoints ∧ (table b').counts = (table b).counts ∧
    (table b').drivetrain = (table b).drivetrain.map R.drivetrain ∧
    (∀ w, (table b').instant w = ((table b).instant w).map R.con) ∧
    (∀ s, (table b').continuous s = ((table b).continuous s).map R.con) := by
  refine ⟨by simp [Spec.table, h.waypoints], h.counts, h.drivetrain, ?_, ?_⟩ <;> intro w <;>
    simp only [Spec.table, h.waypoints, List.getD_eq_getElem?_getD, List.getElem?_map]
  · cases b.path.waypoints[w]? <;> rfl
  · cases b.path.waypoints[w + 1]? <;> rfl

end Trajopt
