import Verif.Spec.Respond
import Verif.Props.History

/-!
# C102: what any call does

The calls that C81 leaves out included: those that throw, those that fail an assertion, and those that do something else
than asked for.
-/

set_option autoImplicit false

namespace Trajopt.Props
open Spec Builder

variable {D : Type} [Dbl D]

/-- The response of a builder call. -/
def answer (o : Out D) : PathTable.Response D := (table o.1, o.2)

theorem answer_of {o : Out D} {t : PathTable D} {e : Option Fault}
    (h : ∃ b', o = (b', e) ∧ table b' = t) : answer o = (t, e) := by
  obtain ⟨b', rfl, rfl⟩ := h
  rfl

theorem answer_wpt {b : Builder D} (hb : WF b) {i : ℕ} (hi : i < 2 ^ 64) (c : Constraint D) :
    answer (b.wptConstraint i c) = (table b).respondWpt i c := by
  unfold PathTable.respondWpt
  split
  next h => exact answer_of (table_wptConstraint hb h c)
  next h =>
    have hlen := hb.len
    unfold wptConstraint
    rw [newWpts_big hlen (by omega), modifyWpt_eq, if_neg (by omega)]
    rfl

theorem answer_push {b : Builder D} (i : ℕ) (c : Constraint D) :
    answer (b.modifyWpt i (pushWpt c)) =
      if i < (table b).waypoints then ((table b).requireAt i c, none) else (table b, some .outOfRange) := by
  split
  next h => exact answer_of (table_pushWpt (by exact h) c)
  next h => rw [modifyWpt_eq, if_neg (by exact h)]; rfl

theorem answer_sgmt {b : Builder D} (hb : WF b) (asserts : Bool) {i j : ℕ} (hj : j < 2 ^ 64)
    (c : Constraint D) :
    answer (b.sgmtConstraint asserts i j c) = (table b).respondSgmt asserts i j c := by
  unfold PathTable.respondSgmt
  have hlen := hb.len
  by_cases hij : i < j
  · rw [if_pos hij]
    split
    next h => exact answer_of (table_sgmtConstraint hb asserts hij h c)
    next h =>
      have hnew : b.newWpts j = b := newWpts_big hlen (by omega)
      unfold sgmtConstraint
      rw [if_neg (by simp [hij]), hnew, modifyWpt_eq]
      by_cases h : i < b.path.waypoints.length
      · rw [if_pos h, if_pos (by exact h)]
        simp only [andThen]
        rw [sgmtLoop_error _ _ _ _ (by simp [withWpts]; omega) (by simp [withWpts]; omega)]
        refine answer_of ⟨_, rfl, ?_⟩
        obtain ⟨m, hm⟩ : ∃ m, b.path.waypoints.length = m + 1 := ⟨b.path.waypoints.length - 1, by omega⟩
        have key := table_along (b := b) (i := i) (j := m) c (by omega) (by omega)
        have hm' : (table b).waypoints - 1 = m := by simp only [table]; omega
        rw [hm', ← key, ← hm]
        simp only [table, withWpts, List.length_mapIdx]
      · rw [if_neg h, if_neg (by exact h)]
        rfl
  · rw [if_neg hij]
    unfold sgmtConstraint
    cases asserts with
    | true => rw [if_pos (by simp [hij]), if_pos rfl]; rfl
    | false =>
      rw [if_neg (by simp), if_neg (by simp)]
      have ht : table (b.newWpts j) = if j < 2 ^ 63 then (table b).reach j else table b := by
        split
        next h => exact table_newWpts hb h
        next h => rw [newWpts_big hlen (by omega)]
      have hl : ∀ o : Out D, andThen o (sgmtLoop c (j - i) (i + 1)) = o := by
        rintro ⟨b', _ | e⟩
        · rw [show j - i = 0 by omega]; rfl
        · rfl
      rw [hl, answer_push, ht]

theorem answer_recordAll {record : Constraint D → Builder D → Out D}
    {require : Constraint D → PathTable D → PathTable.Response D}
    (hr : ∀ c b, WF b → answer (record c b) = require c (table b))
    (hw : ∀ c b, WF b → WF (record c b).1) (l : List (Res (Constraint D))) {b : Builder D}
    (hb : WF b) : answer (recordAll record l b) = (table b).requireEach require l := by
  induction l generalizing b with
  | nil => rfl
  | cons x l ih =>
    cases x with
    | error e => rfl
    | ok c =>
      have h1 := hr c b hb
      have h2 := hw c b hb
      rw [recordAll, PathTable.requireEach, ← h1]
      rcases hx : record c b with ⟨b₁, _ | e⟩
      · rw [hx] at h2
        exact ih h2
      · rfl

theorem bumperEdges_attempts (asserts : Bool) (bum : List (Translation2 D)) (d : D) (p : Translation2 D) :
    bumperEdges asserts bum d p = if bum = [] then [.error .outOfRange]
      else (edges bum).map fun (s, e) => checked asserts d (.linePoint s e p d) := by
  by_cases hb : bum = []
  · simp [hb, bumperEdges]
  rw [bumperEdges, if_neg (by simpa using hb), if_neg hb, edges_eq bum hb, List.map_append]
  congr 1
  · rw [zip_tail_eq, List.map_pmap, ← List.pmap_eq_map (p := fun i => i + 1 < bum.length) (H := by
      intro i hi; simp at hi; omega)]
    apply List.pmap_congr_left
    intro i _ h1 h2
    rw [vat_ok h1, vat_ok (show i < bum.length by omega)]
    rfl
  · split
    next h =>
      rw [vat_ok (show bum.length - 1 < bum.length by omega), vat_ok (show 0 < bum.length by omega)]
      rfl
    next h => rfl

theorem obstacleEdges_attempts (asserts : Bool) {n : ℕ} (hn : 0 < n) (hn' : n < 2 ^ 64)
    (obs : List (Translation2 D)) (d : D) (r : Translation2 D) :
    obstacleEdges asserts n obs d r =
      match obs with
      | [] => [.error .outOfRange]
      | [p] => [checked asserts d (.pointPoint r p d)]
      | [p, q] => [checked asserts d (.pointLine r p q d)]
      | p :: ps =>
        ((p :: ps).zip ps).map (fun (s, e) => checked asserts d (.pointLine r s e d)) ++
        [match (p :: ps)[n - 1]? with
          | some s => checked asserts d (.pointLine r s p d)
          | none => .error .outOfRange] := by
  have hw : wsub n 1 = n - 1 := by unfold wsub; omega
  match obs with
  | [] => rfl
  | [p] => rfl
  | [p, q] => rfl
  | p :: q :: u :: ps =>
    rw [obstacleEdges, if_pos (by simp), if_pos (by simp), hw]
    dsimp only
    generalize hobs : p :: q :: u :: ps = obs
    have ht : q :: u :: ps = obs.tail := by rw [← hobs]; rfl
    have h0 : vat obs 0 = .ok p := by rw [← hobs]; rfl
    rw [ht]
    refine congrArg₂ (· ++ ·) ?_ ?_
    · rw [zip_tail_eq, List.map_pmap, ← List.pmap_eq_map (p := fun i => i + 1 < obs.length) (H := by
        intro i hi; simp at hi; omega)]
      apply List.pmap_congr_left
      intro i _ h1 h2
      rw [vat_ok h1, vat_ok (show i < obs.length by omega)]
      rfl
    · rw [h0, vat]
      cases obs[n - 1]? <;> rfl

theorem obstacleConstraints_attempts (asserts : Bool) (obs : Obstacle D) {bums : List (Obstacle D)}
    (h : ∀ bum ∈ bums, bum.points.length < 2 ^ 64) :
    obstacleConstraints asserts obs bums = attempts asserts obs bums := by
  induction bums with
  | nil => rfl
  | cons bum rest ih =>
    have hl := h bum (by simp)
    rw [obstacleConstraints, attempts, ih fun x hx => h x (by simp [hx])]
    split
    next h1 =>
      obtain ⟨p, hp⟩ := List.length_eq_one_iff.mp h1.2
      obtain ⟨r, hr⟩ := List.length_eq_one_iff.mp h1.1
      rw [pairAttempts, hp, hr]
      rfl
    next h1 =>
      congr 1
      rw [pairAttempts, ← List.flatMap_def, ← List.flatMap_def]
      congr 1
      · exact List.flatMap_congr fun p _ => bumperEdges_attempts asserts _ _ p
      · exact List.flatMap_congr fun r hr => obstacleEdges_attempts asserts (by
          have := List.length_pos_of_mem hr; exact this) hl _ _ r

theorem answer_guessPoint {b : Builder D} (hb : WF b) {i : ℕ} (hi : i < 2 ^ 64) (p : Pose2 D) :
    answer (b.wptInitialGuessPoint i p) =
      if i < 2 ^ 63 then (((table b).reach i).guessAt i p, none) else (table b, some .outOfRange) := by
  split
  next h => exact answer_of (table_wptInitialGuessPoint hb h p)
  next h =>
    have hlen := hb.len
    unfold wptInitialGuessPoint
    rw [newWpts_big hlen (by omega)]
    dsimp only
    rw [List.getElem?_eq_none (by rw [hb.guess]; omega)]
    rfl

theorem answer_guessPoints {b : Builder D} (hb : WF b) {i : ℕ} (hi : i < 2 ^ 64) (ps : List (Pose2 D)) (asserts : Bool) :
    answer (b.sgmtInitialGuessPoints i ps) =
      (table b).respond asserts (.sgmtInitialGuessPoints i ps) := by
  have hlen := hb.len
  rw [PathTable.respond]
  split_ifs with h1 h2
  · have hw : wadd i 1 = 0 := by unfold wadd; omega
    obtain ⟨q, qs, hq⟩ := guess_some (step_newWpts (q := True) hb 0).wf (newWpts_len hb (k := 0) (by norm_num))
    unfold sgmtInitialGuessPoints
    rw [hw]
    simp only [hq]
    refine answer_of ⟨_, rfl, ?_⟩
    rw [table_guess hq (fun l => ps ++ l), table_newWpts hb (by norm_num)]
    rfl
  · exact answer_of (table_sgmtInitialGuessPoints hb h2 ps)
  · have hw : wadd i 1 = i + 1 := by unfold wadd; omega
    unfold sgmtInitialGuessPoints
    dsimp only
    rw [hw, newWpts_big hlen (by omega), List.getElem?_eq_none (by rw [hb.guess]; omega)]
    rfl

theorem answer_andThen {b : Builder D} (hb : WF b) {i : ℕ} (hi : i < 2 ^ 64) (c : Constraint D) (p : Pose2 D) :
    answer (andThen (b.wptConstraint i c) fun b => b.wptInitialGuessPoint i p) =
      if i < 2 ^ 63 then ((((table b).reach i).requireAt i c).guessAt i p, none)
      else (table b, some .outOfRange) := by
  have h1 := answer_wpt hb hi c
  have h2 := (step_wptConstraint (q := True) hb i c).wf
  unfold PathTable.respondWpt at h1
  rcases hx : b.wptConstraint i c with ⟨b₁, o⟩
  rw [hx] at h1 h2
  split_ifs at h1 ⊢ with h
  · obtain ⟨h3, rfl⟩ := Prod.mk.inj h1
    change answer (b₁.wptInitialGuessPoint i p) = _
    rw [answer_guessPoint h2 hi, if_pos h, show table b₁ = _ from h3,
      show ((table b).reach i).requireAt i c = ((table b).requireAt i c).reach i from rfl, reach_reach]
  · obtain ⟨h3, rfl⟩ := Prod.mk.inj h1
    exact h1

theorem respond_exec {b : Builder D} (hb : WF b) (asserts : Bool) (op : Op D) (hop : Sized op)
    (hbum : ∀ bum ∈ b.bumpers, bum.points.length < 2 ^ 64) :
    answer (op.exec asserts b) = (table b).respond asserts op := by
  cases op with
  | setDrivetrain d => rfl
  | poseWpt i x y h => exact answer_andThen hb hop _ _
  | translationWpt i x y h => exact answer_andThen hb hop _ _
  | wptInitialGuessPoint i p => exact answer_guessPoint hb hop p
  | sgmtInitialGuessPoints i ps => exact answer_guessPoints hb hop ps asserts
  | addBumpers o => rfl
  | wptObstacle i o =>
    rw [Op.exec, wptObstacle, obstacleConstraints_attempts asserts o hbum]
    exact answer_recordAll (fun c b hb => answer_wpt hb hop c)
      (fun c b hb => (step_wptConstraint (q := True) hb i c).wf) _ hb
  | sgmtObstacle i j o =>
    rw [Op.exec, sgmtObstacle, obstacleConstraints_attempts asserts o hbum]
    exact answer_recordAll (fun c b hb => answer_sgmt hb asserts hop.2 c)
      (fun c b hb => (step_sgmtConstraint (q := True) hb asserts i j c).wf) _ hb
  | wptConstraint i c => exact answer_wpt hb hop c
  | sgmtConstraint i j c => exact answer_sgmt hb asserts hop.2 c
  | controlIntervalCounts cs => rfl
  | addIntermediateCallback k => rfl

/-- C102: what any call on any builder that can come about does, be it in order or not: the path afterwards, and
what is thrown or asserted, if anything. -/
theorem C102_call (asserts : Bool) (b : Builder D) (hb : Reachable b) (op : Op D) (hop : Sized op)
    (hbum : ∀ bum ∈ (table b).bumpers, bum.points.length < 2 ^ 64) :
    (table (op.exec asserts b).1, (op.exec asserts b).2) = (table b).respond asserts op :=
  respond_exec (wf_reachable hb) asserts op hop hbum

omit [Dbl D] in
theorem requireEach_bumpers {require : Constraint D → PathTable D → PathTable.Response D}
    (h : ∀ c t, (require c t).1.bumpers = t.bumpers) (l : List (Except Fault (Constraint D))) (t : PathTable D) :
    (t.requireEach require l).1.bumpers = t.bumpers := by
  induction l generalizing t with
  | nil => rfl
  | cons x l ih =>
    cases x with
    | error e => rfl
    | ok c =>
      have h1 := h c t
      rw [PathTable.requireEach]
      rcases hx : require c t with ⟨t', _ | e⟩
      · rw [hx] at h1
        exact (ih t').trans h1
      · rw [hx] at h1
        exact h1

omit [Dbl D] in
theorem respondWpt_bumpers (i : ℕ) (c : Constraint D) (t : PathTable D) :
    (t.respondWpt i c).1.bumpers = t.bumpers := by
  unfold PathTable.respondWpt
  split <;> rfl

omit [Dbl D] in
theorem respondSgmt_bumpers (asserts : Bool) (i j : ℕ) (c : Constraint D) (t : PathTable D) :
    (t.respondSgmt asserts i j c).1.bumpers = t.bumpers := by
  unfold PathTable.respondSgmt
  dsimp only
  split_ifs <;> rfl

theorem respond_bumpers (asserts : Bool) (op : Op D) (hop : Sized op) (t : PathTable D)
    (h : ∀ bum ∈ t.bumpers, bum.points.length < 2 ^ 64) :
    ∀ bum ∈ (t.respond asserts op).1.bumpers, bum.points.length < 2 ^ 64 := by
  cases op with
  | addBumpers o =>
    intro bum hm
    rcases List.mem_append.mp (show bum ∈ t.bumpers ++ [o] from hm) with hm | hm
    · exact h bum hm
    · rw [List.mem_singleton.mp hm]; exact hop
  | setDrivetrain d => exact h
  | controlIntervalCounts cs => exact h
  | addIntermediateCallback k => exact h
  | poseWpt i x y a => rw [PathTable.respond]; split <;> exact h
  | translationWpt i x y a => rw [PathTable.respond]; split <;> exact h
  | wptInitialGuessPoint i p => rw [PathTable.respond]; split <;> exact h
  | sgmtInitialGuessPoints i ps => rw [PathTable.respond]; split_ifs <;> exact h
  | wptConstraint i c => rw [PathTable.respond, respondWpt_bumpers]; exact h
  | sgmtConstraint i j c => rw [PathTable.respond, respondSgmt_bumpers]; exact h
  | wptObstacle i o =>
    rw [PathTable.respond, requireEach_bumpers fun c t => respondWpt_bumpers i c t]; exact h
  | sgmtObstacle i j o =>
    rw [PathTable.respond, requireEach_bumpers fun c t => respondSgmt_bumpers asserts i j c t]; exact h

theorem respond_run (asserts : Bool) (ops : List (Op D)) (hops : ∀ op ∈ ops, Sized op) {b : Builder D}
    (hb : WF b) (hbum : ∀ bum ∈ (table b).bumpers, bum.points.length < 2 ^ 64) :
    table (run asserts ops b) = (table b).respondAll asserts ops ∧
    ∀ bum ∈ (table (run asserts ops b)).bumpers, bum.points.length < 2 ^ 64 := by
  induction ops generalizing b with
  | nil => exact ⟨rfl, hbum⟩
  | cons op ops ih =>
    have h1 := respond_exec hb asserts op (hops op (by simp)) hbum
    have h2 : table (op.exec asserts b).1 = ((table b).respond asserts op).1 := congrArg Prod.fst h1
    obtain ⟨i1, i2⟩ := ih (fun o ho => hops o (by simp [ho])) (wf_exec hb asserts op)
      (h2 ▸ respond_bumpers asserts op (hops op (by simp)) _ hbum)
    refine ⟨?_, i2⟩
    rw [h2] at i1
    exact i1

theorem table_new : table (Builder.new : Builder D) = PathTable.empty := by
  simp [table, Builder.new, PathTable.empty]

/-- C102: after any history of calls at all, whatever they threw, the path is as specified, and so is what every
one of them threw. -/
theorem C102_history (asserts : Bool) (ops : List (Op D)) (hops : ∀ op ∈ ops, Sized op) :
    table (run asserts ops Builder.new) = PathTable.empty.respondAll asserts ops ∧
    ∀ before op after, ops = before ++ op :: after →
      (op.exec asserts (run asserts before Builder.new)).2 =
        ((PathTable.empty.respondAll asserts before).respond asserts op).2 := by
  have h0 : ∀ bum ∈ (table (Builder.new : Builder D)).bumpers, bum.points.length < 2 ^ 64 := by
    rw [table_new]; intro bum hm; exact absurd hm List.not_mem_nil
  refine ⟨table_new (D := D) ▸ (respond_run asserts ops hops wf_new h0).1, ?_⟩
  rintro before op after rfl
  obtain ⟨h1, h2⟩ := respond_run asserts before (fun o ho => hops o (by simp [ho])) wf_new h0
  have := respond_exec (wf_run wf_new asserts before) asserts op (hops op (by simp)) h2
  rw [h1, table_new] at this
  exact congrArg Prod.snd this

/-- C102: on calls that are in order, this is what C81 says. -/
theorem C102_in_order (asserts : Bool) (b : Builder D) (hb : Reachable b) (op : Op D) (hop : Sized op)
    (hbum : ∀ bum ∈ (table b).bumpers, bum.points.length < 2 ^ 64) (h : (table b).Accepts asserts op) :
    (table b).respond asserts op = ((table b).after op, none) := by
  rw [← C102_call asserts b hb op hop hbum]
  exact answer_of (C81_call asserts b hb op h)

/-- C102, non-vacuity: without assertions a segment in the wrong order constrains its first waypoint only; an index
that is too large throws and changes nothing; one more than the largest index is waypoint 0. -/
example :
    let ops : List (Op ℝ) := [.poseWpt 2 0 0 0, .sgmtConstraint 2 1 (.linearVelocityMaxMagnitude 1),
      .wptConstraint (2 ^ 63) (.linearVelocityMaxMagnitude 1),
      .sgmtInitialGuessPoints (2 ^ 64 - 1) [⟨⟨1, 0⟩, ⟨1, 0⟩⟩]]
    let t := table (run false ops Builder.new)
    t.waypoints = 3 ∧ t.instant 2 = [.poseEquality 0 0 0, .linearVelocityMaxMagnitude 1] ∧
    t.continuous 1 = [] ∧ t.guess 0 = [⟨⟨1, 0⟩, ⟨1, 0⟩⟩, originPose] := by
  intro ops t
  have h : ∀ op ∈ ops, Sized op := by
    simp [ops, Sized]
  rw [show t = _ from (C102_history false ops h).1]
  simp [ops, PathTable.respondAll, PathTable.respond, PathTable.respondWpt, PathTable.respondSgmt, PathTable.after,
    PathTable.empty, PathTable.reach, PathTable.requireAt, PathTable.guessAt]

/-- C102, non-vacuity: a triangular obstacle and a bumper that is a point: the closing edge begins at the wrong corner;
and a bumper without corners. -/
example :
    attempts true ⟨1, [⟨5, 0⟩, ⟨6, 0⟩, ⟨5, 1⟩]⟩ [⟨(0 : ℝ), [⟨1, 1⟩]⟩] =
      [.ok (.pointLine ⟨1, 1⟩ ⟨5, 0⟩ ⟨6, 0⟩ (0 + 1)), .ok (.pointLine ⟨1, 1⟩ ⟨6, 0⟩ ⟨5, 1⟩ (0 + 1)),
       .ok (.pointLine ⟨1, 1⟩ ⟨5, 0⟩ ⟨5, 0⟩ (0 + 1))] ∧
    attempts true ⟨1, [⟨5, 0⟩]⟩ [⟨(0 : ℝ), []⟩] = [.error .outOfRange] := by
  constructor
  · simp [attempts, pairAttempts, edges, checked]
  · simp [attempts, pairAttempts]

end Trajopt.Props
