import Verif.Lemmas.Ieee
import Verif.Lemmas.Change
import Verif.Lemmas.Generator
import Verif.Lemmas.Extras

/-!
# Builder calls with other numbers
-/

set_option autoImplicit false

namespace Trajopt

open Spec Builder

section
variable {D E : Type} (φ : D → E)

/-- The same outcome with other numbers. -/
def mapOut (o : Out D) : Out E := (Builder.mapD φ o.1, o.2)

theorem mapOut_andThen {φ : D → E} {o : Out D} {f : Builder D → Out D} {f' : Builder E → Out E}
    (h : ∀ b, f' (Builder.mapD φ b) = mapOut φ (f b)) :
    Builder.andThen (mapOut φ o) f' = mapOut φ (Builder.andThen o f) := by
  obtain ⟨b, e⟩ := o
  cases e with
  | none => exact h b
  | some e => rfl

theorem mapD_modify {i : ℕ} {f : Waypoint D → Waypoint D} {f' : Waypoint E → Waypoint E}
    (b : Builder D) (h : ∀ w, f' (Waypoint.mapD φ w) = Waypoint.mapD φ (f w)) :
    (Builder.mapD φ b).modifyWpt i f' = mapOut φ (b.modifyWpt i f) := by
  have hl : (Builder.mapD φ b).path.waypoints.length = b.path.waypoints.length := List.length_map ..
  unfold modifyWpt
  rw [hl]
  split
  · simp only [mapOut, Builder.mapD, SwervePath.mapD, Prod.mk.injEq, and_true, Builder.mk.injEq,
      SwervePath.mk.injEq]
    apply List.ext_getElem (by simp)
    intro k h1 h2
    simp only [List.getElem_modify, List.getElem_map]
    split
    · exact h _
    · rfl
  · rfl

theorem mapD_pushWpt (c : Constraint D) (w : Waypoint D) :
    pushWpt (c.mapD φ) (Waypoint.mapD φ w) = Waypoint.mapD φ (pushWpt c w) := by
  simp [pushWpt, Waypoint.mapD]

theorem mapD_pushSgmt (c : Constraint D) (w : Waypoint D) :
    pushSgmt (c.mapD φ) (Waypoint.mapD φ w) = Waypoint.mapD φ (pushSgmt c w) := by
  simp [pushSgmt, Waypoint.mapD]

theorem mapD_sgmtLoop (c : Constraint D) (n i : ℕ) (b : Builder D) :
    sgmtLoop (c.mapD φ) n i (Builder.mapD φ b) = mapOut φ (sgmtLoop c n i b) := by
  induction n generalizing i b with
  | zero => rfl
  | succ n ih =>
    rw [sgmtLoop, sgmtLoop, mapD_modify φ b (mapD_pushWpt φ c)]
    refine mapOut_andThen fun b => ?_
    rw [mapD_modify φ b (mapD_pushSgmt φ c)]
    exact mapOut_andThen fun b => ih _ b

/-- The same with other numbers. -/
def mapCon (r : Res (Constraint D)) : Res (Constraint E) := r.map (Constraint.mapD φ)

theorem mapD_recordAll {rec : Constraint D → Builder D → Out D}
    {rec' : Constraint E → Builder E → Out E}
    (h : ∀ c b, rec' (c.mapD φ) (Builder.mapD φ b) = mapOut φ (rec c b))
    (l : List (Res (Constraint D))) (b : Builder D) :
    recordAll rec' (l.map (mapCon φ)) (Builder.mapD φ b) = mapOut φ (recordAll rec l b) := by
  induction l generalizing b with
  | nil => rfl
  | cons r l ih =>
    cases r with
    | error e => rfl
    | ok c =>
      rw [List.map_cons]
      change Builder.andThen (rec' (c.mapD φ) (Builder.mapD φ b)) _ = _
      rw [h]
      exact mapOut_andThen fun b => ih b

end

section
variable {D E : Type} [Dbl D] [Dbl E]

/-- A reading of numbers that agrees with what builder calls compute from numbers satisfying `P`. -/
structure Reads {D E : Type} [Dbl D] [Dbl E] (φ : D → E) (P : D → Prop) : Prop where
  zero : φ (Num.lit 0) = Num.lit 0
  zero_mem : P (Num.lit 0)
  add : ∀ {a b}, P a → P b → φ (a + b) = φ a + φ b
  le : ∀ {a b}, P a → P b → Dbl.le (Num.lit 0) (φ (a + b)) = Dbl.le (Num.lit 0) (a + b)
  cos : ∀ {a}, P a → φ (Num.cos a) = Num.cos (φ a)
  sin : ∀ {a}, P a → φ (Num.sin a) = Num.sin (φ a)

variable {φ : D → E} {P : D → Prop} (hφ : Reads φ P)

include hφ in
theorem mapD_loop (n : ℕ) (i : ℤ) (b : Builder D) :
    newWptsLoop n i (Builder.mapD φ b) = Builder.mapD φ (newWptsLoop n i b) := by
  induction n generalizing i b with
  | zero => rfl
  | succ n ih =>
    rw [newWptsLoop, newWptsLoop, ← ih]
    congr 1
    simp only [Builder.mapD, SwervePath.mapD, List.map_append, List.map_cons, List.map_nil, Pose2.mapD,
      Pose2.ofXYHeading, Rotation2.ofAngle, Rotation2.mapD, Translation2.mapD, hφ.zero, hφ.cos hφ.zero_mem,
      hφ.sin hφ.zero_mem]
    rfl

include hφ in
theorem mapD_newWpts (k : ℕ) (b : Builder D) :
    (Builder.mapD φ b).newWpts k = Builder.mapD φ (b.newWpts k) := by
  have hl : (Builder.mapD φ b).path.waypoints.length = b.path.waypoints.length := List.length_map ..
  unfold Builder.newWpts
  rw [hl]
  dsimp only
  split
  · exact mapD_loop hφ _ _ _
  · rfl

include hφ in
theorem mapD_wptConstraint (i : ℕ) (c : Constraint D) (b : Builder D) :
    (Builder.mapD φ b).wptConstraint i (c.mapD φ) = mapOut φ (b.wptConstraint i c) := by
  unfold Builder.wptConstraint
  rw [mapD_newWpts hφ]
  exact mapD_modify φ _ (mapD_pushWpt φ c)

include hφ in
theorem mapD_sgmtConstraint (asserts : Bool) (i j : ℕ) (c : Constraint D) (b : Builder D) :
    (Builder.mapD φ b).sgmtConstraint asserts i j (c.mapD φ) = mapOut φ (b.sgmtConstraint asserts i j c) := by
  unfold Builder.sgmtConstraint
  split
  · rfl
  · rw [mapD_newWpts hφ, mapD_modify φ _ (mapD_pushWpt φ c)]
    exact mapOut_andThen fun b => mapD_sgmtLoop φ c _ _ b

include hφ in
theorem mapD_wptGuess (i : ℕ) (p : Pose2 D) (b : Builder D) :
    (Builder.mapD φ b).wptInitialGuessPoint i (Pose2.mapD φ p) = mapOut φ (b.wptInitialGuessPoint i p) := by
  unfold Builder.wptInitialGuessPoint
  rw [mapD_newWpts hφ]
  generalize b.newWpts i = b
  dsimp only
  have hg : (Builder.mapD φ b).initialGuessPoints[i]? =
      b.initialGuessPoints[i]?.map (·.map (Pose2.mapD φ)) := List.getElem?_map ..
  rw [hg]
  rcases b.initialGuessPoints[i]? with _ | (_ | ⟨q, qs⟩)
  · rfl
  · rfl
  · simp [mapOut, Builder.mapD, List.map_set, List.map_dropLast]

include hφ in
theorem mapD_sgmtGuess (i : ℕ) (ps : List (Pose2 D)) (b : Builder D) :
    (Builder.mapD φ b).sgmtInitialGuessPoints i (ps.map (Pose2.mapD φ)) =
      mapOut φ (b.sgmtInitialGuessPoints i ps) := by
  unfold Builder.sgmtInitialGuessPoints
  dsimp only
  rw [mapD_newWpts hφ]
  generalize b.newWpts (wadd i 1) = b
  generalize wadd i 1 = i
  have hg : (Builder.mapD φ b).initialGuessPoints[i]? =
      b.initialGuessPoints[i]?.map (·.map (Pose2.mapD φ)) := List.getElem?_map ..
  rw [hg]
  rcases b.initialGuessPoints[i]? with _ | qs
  · rfl
  · simp [mapOut, Builder.mapD, List.map_set]

theorem mapD_assert (asserts : Bool) {d : D} (hd : Dbl.le (Num.lit 0) (φ d) = Dbl.le (Num.lit 0) d)
    (c : Constraint D) :
    Constraint.assertNonneg asserts (φ d) (c.mapD φ) = mapCon φ (Constraint.assertNonneg asserts d c) := by
  unfold Constraint.assertNonneg
  rw [hd]
  split <;> rfl

theorem mapD_bumperEdges (asserts : Bool) (bum : List (Translation2 D)) {d : D}
    (hd : Dbl.le (Num.lit 0) (φ d) = Dbl.le (Num.lit 0) d) (p : Translation2 D) :
    bumperEdges asserts (bum.map (Translation2.mapD φ)) (φ d) (p.mapD φ) =
      (bumperEdges asserts bum d p).map (mapCon φ) := by
  have key : ∀ i j, (do
      let s ← vat (bum.map (Translation2.mapD φ)) i
      let e ← vat (bum.map (Translation2.mapD φ)) j
      Constraint.mkLinePoint asserts s e (p.mapD φ) (φ d)) =
      mapCon φ (do
        let s ← vat bum i
        let e ← vat bum j
        Constraint.mkLinePoint asserts s e p d) := by
    intro i j
    rw [vat_map', vat_map']
    rcases vat bum i with e | s
    · rfl
    rcases vat bum j with e | e
    · rfl
    exact mapD_assert asserts hd (.linePoint s e p d)
  unfold bumperEdges
  simp only [List.length_map, key]
  split
  · rfl
  · simp only [List.map_append, List.map_map]
    congr 1
    split <;> rfl

theorem mapD_obstacleEdges (asserts : Bool) (n : ℕ) (obs : List (Translation2 D)) {d : D}
    (hd : Dbl.le (Num.lit 0) (φ d) = Dbl.le (Num.lit 0) d)
    (r : Translation2 D) :
    obstacleEdges asserts n (obs.map (Translation2.mapD φ)) (φ d) (r.mapD φ) =
      (obstacleEdges asserts n obs d r).map (mapCon φ) := by
  have key : ∀ i j, (do
      let s ← vat (obs.map (Translation2.mapD φ)) i
      let e ← vat (obs.map (Translation2.mapD φ)) j
      Constraint.mkPointLine asserts (r.mapD φ) s e (φ d)) =
      mapCon φ (do
        let s ← vat obs i
        let e ← vat obs j
        Constraint.mkPointLine asserts r s e d) := by
    intro i j
    rw [vat_map', vat_map']
    rcases vat obs i with e | s
    · rfl
    rcases vat obs j with e | e
    · rfl
    exact mapD_assert asserts hd (.pointLine r s e d)
  have key1 : (do
      let p ← vat (obs.map (Translation2.mapD φ)) 0
      Constraint.mkPointPoint asserts (r.mapD φ) p (φ d)) =
      mapCon φ (do
        let p ← vat obs 0
        Constraint.mkPointPoint asserts r p d) := by
    rw [vat_map']
    rcases vat obs 0 with e | s
    · rfl
    exact mapD_assert asserts hd (.pointPoint r s d)
  unfold obstacleEdges
  simp only [List.length_map, key, key1]
  split
  · simp only [List.map_append, List.map_map]
    congr 1
    split <;> rfl
  · rfl

include hφ in
theorem mapD_obstacleConstraints (asserts : Bool) {obs : Obstacle D} (ho : P obs.safetyDistance)
    {bums : List (Obstacle D)} (hb : ∀ o ∈ bums, P o.safetyDistance) :
    obstacleConstraints asserts (Obstacle.mapD φ obs) (bums.map (Obstacle.mapD φ)) =
      (obstacleConstraints asserts obs bums).map (mapCon φ) := by
  induction bums with
  | nil => rfl
  | cons bum rest ih =>
    have hbum := hb bum List.mem_cons_self
    have hd : Dbl.le (Num.lit 0) (φ (bum.safetyDistance + obs.safetyDistance)) =
        Dbl.le (Num.lit 0) (bum.safetyDistance + obs.safetyDistance) := hφ.le hbum ho
    have key1 : (do
        let r ← vat (bum.points.map (Translation2.mapD φ)) 0
        let p ← vat (obs.points.map (Translation2.mapD φ)) 0
        Constraint.mkPointPoint asserts r p (φ (bum.safetyDistance + obs.safetyDistance))) =
        mapCon φ (do
          let r ← vat bum.points 0
          let p ← vat obs.points 0
          Constraint.mkPointPoint asserts r p (bum.safetyDistance + obs.safetyDistance)) := by
      rw [vat_map', vat_map']
      rcases vat bum.points 0 with e | r
      · rfl
      rcases vat obs.points 0 with e | p
      · rfl
      exact mapD_assert asserts hd (.pointPoint r p _)
    rw [List.map_cons, obstacleConstraints, obstacleConstraints, ih fun o h => hb o (List.mem_cons_of_mem _ h)]
    simp only [Obstacle.mapD, List.length_map, ← hφ.add hbum ho, key1]
    split
    · rfl
    · simp only [List.map_append, List.map_flatten, List.map_map]
      congr 2
      · congr 1
        exact List.map_congr_left fun p _ => mapD_bumperEdges asserts _ hd p
      · congr 1
        exact List.map_congr_left fun p _ => mapD_obstacleEdges asserts _ _ hd p

include hφ in
theorem mapD_exec (asserts : Bool) {op : Op D} (hop : ∀ d ∈ op.data, P d) {b : Builder D}
    (hb : ∀ o ∈ b.bumpers, P o.safetyDistance) :
    (Op.mapD φ op).exec asserts (Builder.mapD φ b) = mapOut φ (op.exec asserts b) := by
  cases op with
  | setDrivetrain d => rfl
  | poseWpt i x y a =>
    change Builder.andThen ((Builder.mapD φ b).wptConstraint i (Constraint.mapD φ (.poseEquality x y a))) _ = _
    rw [mapD_wptConstraint hφ]
    refine mapOut_andThen fun b => ?_
    have ha : P a := hop a (by simp [Op.data])
    rw [← mapD_wptGuess hφ]
    congr 1
    simp only [Pose2.mapD, Pose2.ofXYHeading, Rotation2.ofAngle, Rotation2.mapD, Translation2.mapD, hφ.cos ha, hφ.sin ha]
  | translationWpt i x y a =>
    change Builder.andThen
      ((Builder.mapD φ b).wptConstraint i (Constraint.mapD φ (.translationEquality ⟨x, y⟩))) _ = _
    rw [mapD_wptConstraint hφ]
    refine mapOut_andThen fun b => ?_
    have ha : P a := hop a (by simp [Op.data])
    rw [← mapD_wptGuess hφ]
    congr 1
    simp only [Pose2.mapD, Pose2.ofXYHeading, Rotation2.ofAngle, Rotation2.mapD, Translation2.mapD, hφ.cos ha, hφ.sin ha]
  | wptInitialGuessPoint i p => exact mapD_wptGuess hφ i p b
  | sgmtInitialGuessPoints i ps => exact mapD_sgmtGuess hφ i ps b
  | addBumpers o => simp [Op.mapD, Op.exec, Builder.addBumpers, mapOut, Builder.mapD]
  | wptObstacle i o =>
    simp only [Op.mapD, Op.exec, wptObstacle]
    change recordAll _ (obstacleConstraints asserts (Obstacle.mapD φ o) (b.bumpers.map (Obstacle.mapD φ))) _ = _
    rw [mapD_obstacleConstraints hφ asserts (hop _ List.mem_cons_self) hb]
    exact mapD_recordAll φ (fun c b => mapD_wptConstraint hφ i c b) _ b
  | sgmtObstacle i j o =>
    simp only [Op.mapD, Op.exec, sgmtObstacle]
    change recordAll _ (obstacleConstraints asserts (Obstacle.mapD φ o) (b.bumpers.map (Obstacle.mapD φ))) _ = _
    rw [mapD_obstacleConstraints hφ asserts (hop _ List.mem_cons_self) hb]
    exact mapD_recordAll φ (fun c b => mapD_sgmtConstraint hφ asserts i j c b) _ b
  | wptConstraint i c => exact mapD_wptConstraint hφ i c b
  | sgmtConstraint i j c => exact mapD_sgmtConstraint hφ asserts i j c b
  | controlIntervalCounts cs => rfl
  | addIntermediateCallback k => rfl

include hφ in
theorem mapD_run (asserts : Bool) {ops : List (Op D)} (hops : ∀ op ∈ ops, ∀ d ∈ op.data, P d)
    {b : Builder D} (hb : ∀ o ∈ b.bumpers, P o.safetyDistance) :
    run asserts (ops.map (Op.mapD φ)) (Builder.mapD φ b) = Builder.mapD φ (run asserts ops b) := by
  induction ops generalizing b with
  | nil => rfl
  | cons op ops ih =>
    have hop := hops op List.mem_cons_self
    change run asserts (ops.map (Op.mapD φ)) ((Op.mapD φ op).exec asserts (Builder.mapD φ b)).1 = _
    rw [mapD_exec hφ asserts hop hb]
    refine ih (fun o h => hops o (List.mem_cons_of_mem _ h)) fun o ho => ?_
    have h := congrArg Prod.fst (exec_extras asserts op b)
    change (op.exec asserts b).1.bumpers = _ at h
    rw [h] at ho
    cases op
    case addBumpers o' =>
      rcases List.mem_append.mp ho with ho | ho
      · exact hb o ho
      · rw [List.mem_singleton.mp ho]
        exact hop _ List.mem_cons_self
    all_goals exact hb o ho

end

end Trajopt
