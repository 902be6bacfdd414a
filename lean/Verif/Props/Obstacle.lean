import Verif.Lemmas.Obstacle
import Verif.Lemmas.Extras
import Verif.Props.Constraint

/-!
# C26–C27 Obstacles: what is recorded

Any scalar arithmetic, except where witnesses are given.
-/

set_option autoImplicit false

namespace Trajopt.Props

open Spec Builder

variable {D : Type} [Dbl D]

/-- What C26 says about one obstacle call on the builder `b`: the call returns, and what has been
added is the documented keep-out constraints with every bumper registered so far. -/
def ObstacleCallsAsDocumented (asserts : Bool) (obs : Obstacle D) (b : Builder D) : Prop :=
  (∀ i < 2 ^ 63, ∃ b', b.wptObstacle asserts i obs = (b', none) ∧
    table b' = (table b).requireAllAt i ((table b).bumpers.flatMap (keepOuts obs))) ∧
  (∀ i j, i < j → j < 2 ^ 63 → ∃ b', b.sgmtObstacle asserts i j obs = (b', none) ∧
    table b' = (table b).requireAllAlong i j ((table b).bumpers.flatMap (keepOuts obs)))

/-- C26, what holds.  Missing: obstacles with three or more corners and bumpers with a different
number of corners (wrong closing edge, see `C26_closing_throws`, `C26_refuted_closing`);
one-point obstacles with several bumpers, a one-point one among them not last
(`C26_early_return`); shapes without corners. -/
theorem C26_partial (asserts : Bool) (b : Builder D) (hb : Reachable b) (obs : Obstacle D)
    (hobs : obs.points ≠ []) (hlen : obs.points.length < 2 ^ 64)
    (hbum : ∀ bum ∈ b.bumpers, bum.points ≠ [])
    (hsame : 3 ≤ obs.points.length → ∀ bum ∈ b.bumpers, bum.points.length = obs.points.length)
    (hsingle : obs.points.length = 1 → ∀ bum ∈ b.bumpers.dropLast, bum.points.length ≠ 1)
    (hdist : asserts = true → ∀ bum ∈ b.bumpers,
      Dbl.le (Num.lit 0) (bum.safetyDistance + obs.safetyDistance) = true) :
    ObstacleCallsAsDocumented asserts obs b := by
  have hwf := wf_reachable hb
  have h := obstacleConstraints_eq ⟨hobs, hlen, hbum, hsame, hsingle, hdist⟩
  refine ⟨fun i hi => ?_, fun i j hij hj => ?_⟩
  · rw [wptObstacle, h]
    exact recordAll_wpt i hi _ hwf
  · rw [sgmtObstacle, h]
    exact recordAll_sgmt asserts i j hij hj _ hwf

/-- What an obstacle call records in general: the constraint objects created before the first
fault, which is also the outcome of the call. -/
theorem obstacle_call (asserts : Bool) (b : Builder D) (hb : Reachable b) (obs : Obstacle D) :
    (∀ i < 2 ^ 63, ∃ b', b.wptObstacle asserts i obs =
        (b', firstFault (obstacleConstraints asserts obs b.bumpers)) ∧
      table b' = (table b).requireAllAt i
        (recorded (obstacleConstraints asserts obs b.bumpers))) ∧
    (∀ i j, i < j → j < 2 ^ 63 → ∃ b', b.sgmtObstacle asserts i j obs =
        (b', firstFault (obstacleConstraints asserts obs b.bumpers)) ∧
      table b' = (table b).requireAllAlong i j
        (recorded (obstacleConstraints asserts obs b.bumpers))) := by
  have hwf := wf_reachable hb
  refine ⟨fun i hi => ?_, fun i j hij hj => ?_⟩
  · obtain ⟨b', h, ht⟩ := recordAll_wpt i hi (recorded (obstacleConstraints asserts obs b.bumpers)) hwf
    exact ⟨b', recordAll_eq _ _ _ _ h, ht⟩
  · obtain ⟨b', h, ht⟩ := recordAll_sgmt asserts i j hij hj
      (recorded (obstacleConstraints asserts obs b.bumpers)) hwf
    exact ⟨b', recordAll_eq _ _ _ _ h, ht⟩

omit [Dbl D] in
theorem firstFault_flatten {ls : List (List (Res (Constraint D)))}
    (h : ∀ l ∈ ls, firstFault l = none) : firstFault ls.flatten = none := by
  induction ls with
  | nil => rfl
  | cons l ls ih =>
    rw [List.flatten_cons, firstFault_append, h l (by simp), ih fun l hl => h l (by simp [hl])]
    rfl

omit [Dbl D] in
theorem firstFault_ok (cs : List (Constraint D)) : firstFault (cs.map .ok) = none := by
  induction cs with
  | nil => rfl
  | cons c cs ih => exact ih

/-- C26 is false: an obstacle with at least three corners throws `out_of_range` whenever the first
bumper has more corners than the obstacle — any triangle against rectangular bumpers. -/
theorem C26_closing_throws (asserts : Bool) (b : Builder D) (hb : Reachable b) (obs : Obstacle D)
    (bum : Obstacle D) (rest : List (Obstacle D)) (hbums : b.bumpers = bum :: rest)
    (h3 : 3 ≤ obs.points.length) (hmore : obs.points.length < bum.points.length)
    (hmem : bum.points.length < 2 ^ 64)
    (hdist : asserts = true →
      Dbl.le (Num.lit 0) (bum.safetyDistance + obs.safetyDistance) = true) :
    (∀ i < 2 ^ 63, (b.wptObstacle asserts i obs).2 = some .outOfRange) ∧
    (∀ i j, i < j → j < 2 ^ 63 → (b.sgmtObstacle asserts i j obs).2 = some .outOfRange) := by
  have key : firstFault (obstacleConstraints asserts obs b.bumpers) = some .outOfRange := by
    have hne : bum.points ≠ [] := by intro h; simp [h] at hmore
    rw [hbums, obstacleConstraints, if_neg (by omega), firstFault_append, firstFault_append]
    have h1 : firstFault (obs.points.map (bumperEdges asserts bum.points
        (bum.safetyDistance + obs.safetyDistance))).flatten = none := by
      apply firstFault_flatten
      intro l hl
      obtain ⟨p, -, rfl⟩ := List.mem_map.mp hl
      rw [bumperEdges_eq p hne hdist]
      exact firstFault_ok _
    rw [h1, Option.none_or]
    obtain ⟨r, rs, hr⟩ := List.exists_cons_of_ne_nil hne
    have h2 : firstFault (obstacleEdges asserts bum.points.length obs.points
        (bum.safetyDistance + obs.safetyDistance) r) = some .outOfRange := by
      rw [obstacleEdges, if_pos (by omega), if_pos h3, firstFault_append]
      have h4 : firstFault ((List.range (obs.points.length - 1)).map fun i => do
          let s ← vat obs.points i
          let e ← vat obs.points (i + 1)
          Constraint.mkPointLine asserts r s e (bum.safetyDistance + obs.safetyDistance)) = none := by
        have hmk : ∀ s e, Constraint.mkPointLine asserts r s e
            (bum.safetyDistance + obs.safetyDistance) =
            .ok (.pointLine r s e (bum.safetyDistance + obs.safetyDistance)) := by
          intro s e
          unfold Constraint.mkPointLine Constraint.assertNonneg
          cases asserts <;> simp_all
        simp only [hmk]
        have : ∀ is : List ℕ, (∀ i ∈ is, i + 1 < obs.points.length) →
            firstFault (is.map fun i => do
              let s ← vat obs.points i
              let e ← vat obs.points (i + 1)
              (.ok (.pointLine r s e (bum.safetyDistance + obs.safetyDistance)) :
                Res (Constraint D))) = none := by
          intro is his
          induction is with
          | nil => rfl
          | cons i is ih =>
            have := his i (by simp)
            rw [List.map_cons, vat_ok (show i < _ by omega), vat_ok this]
            exact ih fun i hi => his i (by simp [hi])
        apply this
        intro i hi
        simp at hi
        omega
      rw [h4, Option.none_or, show wsub bum.points.length 1 = bum.points.length - 1 by
        unfold wsub; omega]
      have : vat obs.points (bum.points.length - 1) = .error .outOfRange := by
        simp only [vat, List.getElem?_eq_none (show obs.points.length ≤ bum.points.length - 1 by omega)]
      rw [this]
      rfl
    rw [hr, List.map_cons, List.flatten_cons, firstFault_append, ← hr, h2]
    rfl
  obtain ⟨h1, h2⟩ := obstacle_call asserts b hb obs
  refine ⟨fun i hi => ?_, fun i j hij hj => ?_⟩
  · obtain ⟨b', h, -⟩ := h1 i hi
    rw [h, key]
  · obtain ⟨b', h, -⟩ := h2 i j hij hj
    rw [h, key]

/-- C26: otherwise the call returns: no bumper has more corners than an obstacle with three or more
corners, and every shape has a corner. -/
theorem C26_returns (asserts : Bool) (b : Builder D) (hb : Reachable b) (obs : Obstacle D)
    (hobs : obs.points ≠ []) (hbum : ∀ bum ∈ b.bumpers, bum.points ≠ [])
    (hless : 3 ≤ obs.points.length → ∀ bum ∈ b.bumpers, bum.points.length ≤ obs.points.length)
    (hlen : obs.points.length < 2 ^ 64)
    (hdist : asserts = true → ∀ bum ∈ b.bumpers,
      Dbl.le (Num.lit 0) (bum.safetyDistance + obs.safetyDistance) = true) :
    (∀ i < 2 ^ 63, (b.wptObstacle asserts i obs).2 = none) ∧
    (∀ i j, i < j → j < 2 ^ 63 → (b.sgmtObstacle asserts i j obs).2 = none) := by
  have key : ∀ bums : List (Obstacle D), (∀ bum ∈ bums, bum ∈ b.bumpers) →
      firstFault (obstacleConstraints asserts obs bums) = none := by
    intro bums
    induction bums with
    | nil => intro _; rfl
    | cons bum rest ih =>
      intro hin
      have hne := hbum bum (hin bum (by simp))
      have hd : asserts = true →
          Dbl.le (Num.lit 0) (bum.safetyDistance + obs.safetyDistance) = true :=
        fun ha => hdist ha bum (hin bum (by simp))
      have hpp : ∀ r p, Constraint.mkPointPoint asserts r p
          (bum.safetyDistance + obs.safetyDistance) =
          .ok (.pointPoint r p (bum.safetyDistance + obs.safetyDistance)) := by
        intro r p
        unfold Constraint.mkPointPoint Constraint.assertNonneg
        cases asserts <;> simp_all
      have hpl : ∀ r s e, Constraint.mkPointLine asserts r s e
          (bum.safetyDistance + obs.safetyDistance) =
          .ok (.pointLine r s e (bum.safetyDistance + obs.safetyDistance)) := by
        intro r s e
        unfold Constraint.mkPointLine Constraint.assertNonneg
        cases asserts <;> simp_all
      have hpos : 0 < obs.points.length := List.length_pos_of_ne_nil hobs
      have hbpos : 0 < bum.points.length := List.length_pos_of_ne_nil hne
      rw [obstacleConstraints]
      split
      · rw [vat_ok hbpos, vat_ok hpos]
        simp only [bind, Except.bind, hpp]
        rfl
      · rw [firstFault_append, firstFault_append, ih fun x hx => hin x (by simp [hx])]
        have h1 : firstFault (obs.points.map (bumperEdges asserts bum.points
            (bum.safetyDistance + obs.safetyDistance))).flatten = none := by
          apply firstFault_flatten
          intro l hl
          obtain ⟨p, -, rfl⟩ := List.mem_map.mp hl
          rw [bumperEdges_eq p hne hd]
          exact firstFault_ok _
        have h2 : firstFault (bum.points.map (obstacleEdges asserts bum.points.length obs.points
            (bum.safetyDistance + obs.safetyDistance))).flatten = none := by
          apply firstFault_flatten
          intro l hl
          obtain ⟨r, -, rfl⟩ := List.mem_map.mp hl
          rw [obstacleEdges]
          split
          · rw [firstFault_append]
            have : ∀ is : List ℕ, (∀ i ∈ is, i + 1 < obs.points.length) →
                firstFault (is.map fun i => do
                  let s ← vat obs.points i
                  let e ← vat obs.points (i + 1)
                  Constraint.mkPointLine asserts r s e
                    (bum.safetyDistance + obs.safetyDistance)) = none := by
              intro is his
              induction is with
              | nil => rfl
              | cons i is ih =>
                have := his i (by simp)
                rw [List.map_cons, vat_ok (show i < _ by omega), vat_ok this, Except.ok_bind,
                  Except.ok_bind, hpl]
                exact ih fun i hi => his i (by simp [hi])
            rw [this _ (by intro i hi; simp at hi; omega)]
            split
            · rename_i h3
              have := hless h3 bum (hin bum (by simp))
              rw [show wsub bum.points.length 1 = bum.points.length - 1 by unfold wsub; omega,
                vat_ok (show bum.points.length - 1 < obs.points.length by omega), vat_ok hpos]
              simp only [bind, Except.bind, hpl]
              rfl
            · rfl
          · rw [vat_ok hpos]
            simp only [bind, Except.bind, hpp]
            rfl
        rw [h1, h2]
        rfl
  obtain ⟨h1, h2⟩ := obstacle_call asserts b hb obs
  refine ⟨fun i hi => ?_, fun i j hij hj => ?_⟩
  · obtain ⟨b', h, -⟩ := h1 i hi
    rw [h, key _ fun _ h => h]
  · obtain ⟨b', h, -⟩ := h2 i j hij hj
    rw [h, key _ fun _ h => h]

/-- C26 is false: after a one-point bumper, a one-point obstacle is not kept off any later bumper. -/
theorem C26_early_return (asserts : Bool) (b : Builder D) (hb : Reachable b) (obs bum : Obstacle D)
    (rest : List (Obstacle D)) (hbums : b.bumpers = bum :: rest) (p r : Translation2 D)
    (hp : obs.points = [p]) (hr : bum.points = [r])
    (hdist : asserts = true →
      Dbl.le (Num.lit 0) (bum.safetyDistance + obs.safetyDistance) = true) (i : ℕ) (hi : i < 2 ^ 63) :
    ∃ b', b.wptObstacle asserts i obs = (b', none) ∧ table b' = (table b).requireAllAt i
      [.pointPoint r p (bum.safetyDistance + obs.safetyDistance)] := by
  have hc : obstacleConstraints asserts obs b.bumpers =
      [.ok (.pointPoint r p (bum.safetyDistance + obs.safetyDistance))] := by
    have : Constraint.mkPointPoint asserts r p (bum.safetyDistance + obs.safetyDistance) =
        .ok (.pointPoint r p (bum.safetyDistance + obs.safetyDistance)) := by
      unfold Constraint.mkPointPoint Constraint.assertNonneg
      cases asserts <;> simp_all
    rw [hbums, obstacleConstraints]
    simp [hp, hr, vat, bind, Except.bind, this]
  obtain ⟨b', h, ht⟩ := (obstacle_call asserts b hb obs).1 i hi
  rw [hc] at h ht
  exact ⟨b', h, ht⟩

/-- Shapes without corners: an empty obstacle throws once a bumper with a corner is registered, an
empty bumper throws for every non-empty obstacle. -/
theorem C26_no_corners (asserts : Bool) (b : Builder D) (obs bum : Obstacle D)
    (rest : List (Obstacle D)) (hbums : b.bumpers = bum :: rest)
    (h : obs.points = [] ∧ bum.points ≠ [] ∨ obs.points ≠ [] ∧ bum.points = []) (i j : ℕ) :
    b.wptObstacle asserts i obs = (b, some .outOfRange) ∧
    b.sgmtObstacle asserts i j obs = (b, some .outOfRange) := by
  have hc : ∃ l, obstacleConstraints asserts obs b.bumpers = .error .outOfRange :: l := by
    rw [hbums, obstacleConstraints]
    rcases h with ⟨h1, h2⟩ | ⟨h1, h2⟩
    · obtain ⟨r, rs, hr⟩ := List.exists_cons_of_ne_nil h2
      simp [h1, hr, obstacleEdges, vat, bind, Except.bind]
    · obtain ⟨r, rs, hr⟩ := List.exists_cons_of_ne_nil h1
      simp [hr, h2, bumperEdges]
  obtain ⟨l, hl⟩ := hc
  rw [wptObstacle, sgmtObstacle, hl]
  exact ⟨rfl, rfl⟩

/-- With asserts compiled in, a negative sum of safety distances stops the call before anything is
recorded. -/
theorem C26_negative (b : Builder D) (obs bum : Obstacle D) (rest : List (Obstacle D))
    (hbums : b.bumpers = bum :: rest) (hobs : obs.points ≠ []) (hbum : bum.points ≠ [])
    (hneg : Dbl.le (Num.lit 0) (bum.safetyDistance + obs.safetyDistance) = false) (i j : ℕ) :
    b.wptObstacle true i obs = (b, some .assertFailed) ∧
    b.sgmtObstacle true i j obs = (b, some .assertFailed) := by
  have hc : ∃ l, obstacleConstraints true obs b.bumpers = .error .assertFailed :: l := by
    obtain ⟨p, ps, hp⟩ := List.exists_cons_of_ne_nil hobs
    obtain ⟨r, rs, hr⟩ := List.exists_cons_of_ne_nil hbum
    rw [hbums, obstacleConstraints, hp, hr]
    cases rs with
    | nil =>
      cases ps with
      | nil =>
        simp [vat, bind, Except.bind, Constraint.mkPointPoint, Constraint.assertNonneg, hneg]
      | cons p' ps =>
        have hnone : ∀ l : List (Translation2 D), (l.map (bumperEdges true [r]
            (bum.safetyDistance + obs.safetyDistance))).flatten = [] := by
          intro l; simp [bumperEdges]
        rw [hnone]
        simp [vat, bind, Except.bind, obstacleEdges, Constraint.mkPointLine,
          Constraint.assertNonneg, hneg, List.range_succ_eq_map]
    | cons r' rs =>
      simp [vat, bind, Except.bind, bumperEdges, Constraint.mkLinePoint,
        Constraint.assertNonneg, hneg, List.range_succ_eq_map]
  obtain ⟨l, hl⟩ := hc
  rw [wptObstacle, sgmtObstacle, hl]
  exact ⟨rfl, rfl⟩

/-- A builder with the given bumpers. -/
def withBumpers (bums : List (Obstacle D)) : Builder D := run false (bums.map .addBumpers) .new

theorem withBumpers_bumpers (bums : List (Obstacle D)) : (withBumpers bums).bumpers = bums := by
  have : ∀ (b : Builder D), (run false (bums.map .addBumpers) b).bumpers = b.bumpers ++ bums := by
    induction bums with
    | nil => intro b; simp [run]
    | cons bum bums ih =>
      intro b
      change (run false (bums.map .addBumpers) (b.addBumpers bum)).bumpers = _
      rw [ih]
      simp [addBumpers]
  rw [withBumpers, this]
  rfl

theorem withBumpers_reachable (bums : List (Obstacle D)) : Reachable (withBumpers bums) :=
  ⟨false, _, rfl⟩

/-- A unit square with safety distance 1, away from the origin. -/
def squareObstacle : Obstacle ℝ := ⟨1, [⟨5, 5⟩, ⟨6, 5⟩, ⟨6, 6⟩, ⟨5, 6⟩]⟩
/-- Triangular bumpers. -/
def triangleBumpers : Obstacle ℝ := ⟨0, [⟨0, 0⟩, ⟨1, 0⟩, ⟨0, 1⟩]⟩
/-- Square bumpers. -/
def squareBumpers : Obstacle ℝ := ⟨0, [⟨1, 1⟩, ⟨-1, 1⟩, ⟨-1, -1⟩, ⟨1, -1⟩]⟩
/-- One-point bumpers. -/
def pointBumpers : Obstacle ℝ := ⟨0, [⟨0, 0⟩]⟩
/-- A one-point obstacle. -/
def pointObstacle : Obstacle ℝ := ⟨1, [⟨5, 5⟩]⟩

/-- The hypotheses of `C26_negative` can be met. -/
example : (withBumpers [squareBumpers]).wptObstacle true 0 ⟨-1, [⟨5, 5⟩]⟩ =
    (withBumpers [squareBumpers], some .assertFailed) :=
  (C26_negative _ _ squareBumpers [] (withBumpers_bumpers _) (by simp) (by simp [squareBumpers])
    (by simp [squareBumpers, Dbl.le, Num.lit]) 0 0).1

/-- C26 is false, witness: triangular bumpers and a square obstacle. No constraint keeps the first
bumper corner away from the obstacle's closing edge; a diagonal is used instead. -/
theorem C26_refuted_closing :
    ¬ ObstacleCallsAsDocumented false squareObstacle (withBumpers [triangleBumpers]) := by
  rintro ⟨h, -⟩
  obtain ⟨b', h, ht⟩ := h 0 (by norm_num)
  obtain ⟨b'', h', ht'⟩ := (obstacle_call false _ (withBumpers_reachable [triangleBumpers])
    squareObstacle).1 0 (by norm_num)
  rw [h] at h'
  cases h'
  rw [ht] at ht'
  have hb : (table (withBumpers [triangleBumpers])).bumpers = [triangleBumpers] :=
    withBumpers_bumpers _
  rw [hb, withBumpers_bumpers] at ht'
  have := congrArg (fun t => t.instant 0) ht'
  simp [PathTable.requireAllAt, keepOuts, edges, obstacleConstraints, recorded, bumperEdges,
    obstacleEdges, vat, wsub, Constraint.mkLinePoint, Constraint.mkPointLine,
    Constraint.assertNonneg, bind, Except.bind, List.range, List.range.loop, squareObstacle,
    triangleBumpers] at this

/-- C26 is false, witness for the early return: a one-point and a square bumper, a one-point
obstacle. -/
theorem C26_refuted_early_return :
    ¬ ObstacleCallsAsDocumented false pointObstacle (withBumpers [pointBumpers, squareBumpers]) := by
  rintro ⟨h, -⟩
  obtain ⟨b', h, ht⟩ := h 0 (by norm_num)
  obtain ⟨b'', h', ht'⟩ := C26_early_return false _ (withBumpers_reachable _) pointObstacle
    pointBumpers [squareBumpers] (withBumpers_bumpers _) ⟨5, 5⟩ ⟨0, 0⟩ rfl rfl (by simp) 0
    (by norm_num)
  rw [h] at h'
  cases h'
  rw [ht] at ht'
  have hb : (table (withBumpers [pointBumpers, squareBumpers])).bumpers =
    [pointBumpers, squareBumpers] := withBumpers_bumpers _
  rw [hb] at ht'
  have := congrArg (fun t => t.instant 0) ht'
  simp [PathTable.requireAllAt, keepOuts, edges, pointObstacle, pointBumpers, squareBumpers] at this

/-- C26, non-vacuity of `C26_partial`: square bumpers and a square obstacle, asserts on; 4·4 edge–corner
pairs each way. -/
example : ObstacleCallsAsDocumented true squareObstacle (withBumpers [squareBumpers]) ∧
    (keepOuts squareObstacle squareBumpers).length = 32 := by
  refine ⟨?_, rfl⟩
  apply C26_partial _ _ (withBumpers_reachable _)
  all_goals simp [withBumpers_bumpers, squareObstacle, squareBumpers]

/-- The hypotheses of `C26_closing_throws`: square bumpers, triangular obstacle. -/
example : ((withBumpers [squareBumpers]).wptObstacle true 3 triangleBumpers).2 = some .outOfRange := by
  apply (C26_closing_throws true _ (withBumpers_reachable _) triangleBumpers squareBumpers []
    (withBumpers_bumpers _) _ _ _ _).1
  all_goals simp [squareBumpers, triangleBumpers]

/-! ### C27 -/

/-- C27: the bumpers a builder knows are those registered in its history, in order. -/
theorem C27_bumpers (asserts : Bool) (ops : List (Op D)) :
    (run asserts ops Builder.new).bumpers = bumpersOf ops := by
  have : ∀ x : List (Obstacle D) × Option (SwerveDrivetrain D) × List ℕ,
      (ops.foldl afterOp x).1 = x.1 ++ bumpersOf ops := by
    induction ops with
    | nil => simp [bumpersOf]
    | cons op ops ih =>
      intro x
      rw [List.foldl_cons, ih]
      cases op <;> simp [afterOp, bumpersOf]
  have h := congrArg Prod.fst (run_extras asserts ops Builder.new)
  rw [this] at h
  exact h

/-- C27: what an obstacle call records, and whether it throws, depends on the registered bumpers only:
there are a list of constraints and an outcome such that every call of it on any builder with these
bumpers adds this list and has this outcome. -/
theorem C27_only_bumpers (asserts : Bool) (obs : Obstacle D) (bums : List (Obstacle D)) :
    ∃ (cs : List (Constraint D)) (e : Option Fault), ∀ ops : List (Op D), bumpersOf ops = bums →
      ∀ b, b = run asserts ops Builder.new →
      (∀ i < 2 ^ 63, ∃ b', b.wptObstacle asserts i obs = (b', e) ∧
        table b' = (table b).requireAllAt i cs) ∧
      (∀ i j, i < j → j < 2 ^ 63 → ∃ b', b.sgmtObstacle asserts i j obs = (b', e) ∧
        table b' = (table b).requireAllAlong i j cs) := by
  refine ⟨recorded (obstacleConstraints asserts obs bums),
    firstFault (obstacleConstraints asserts obs bums), ?_⟩
  rintro ops rfl b rfl
  have := obstacle_call asserts (run asserts ops Builder.new) ⟨asserts, ops, rfl⟩ obs
  rwa [C27_bumpers] at this

/-- C27: with no bumpers registered an obstacle call does nothing at all. -/
theorem C27_no_bumpers (asserts : Bool) (ops : List (Op D)) (h : bumpersOf ops = [])
    (b : Builder D) (hb : b = run asserts ops Builder.new) (obs : Obstacle D) (i j : ℕ) :
    b.wptObstacle asserts i obs = (b, none) ∧ b.sgmtObstacle asserts i j obs = (b, none) := by
  have : b.bumpers = [] := by rw [hb, C27_bumpers, h]
  unfold wptObstacle sgmtObstacle
  rw [this]
  exact ⟨rfl, rfl⟩

/-- C27: `AddBumpers` changes nothing but the list of bumpers. -/
theorem C27_add_bumpers (b : Builder D) (o : Obstacle D) :
    table (b.addBumpers o) = { table b with bumpers := (table b).bumpers ++ [o] } := rfl

/-- Non-vacuity for C27. -/
example (o o' : Obstacle D) : bumpersOf [.wptObstacle 0 o, .addBumpers o', .wptObstacle 1 o] = [o'] :=
  rfl

end Trajopt.Props
