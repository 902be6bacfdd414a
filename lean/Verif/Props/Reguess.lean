import Verif.Spec.Reguess
import Verif.Props.Split
import Verif.Props.Trajectory
import Verif.Props.Examples

/-!
# C115 Guesses decide where the solver starts and nothing else
-/

set_option autoImplicit false

namespace Trajopt.Props

open Spec Builder

variable {D : Type} [Dbl D]

/-- Two builders that differ in the guesses only. -/
structure Alike (b b' : Builder D) : Prop where
  path : b'.path = b.path
  bumpers : b'.bumpers = b.bumpers
  guess : b'.initialGuessPoints.length = b.initialGuessPoints.length
  full : ∀ l ∈ b.initialGuessPoints, l ≠ []
  full' : ∀ l ∈ b'.initialGuessPoints, l ≠ []
  counts : b'.controlIntervalCounts = b.controlIntervalCounts

/-- Two outcomes that differ in the guesses only. -/
def AlikeOut (o o' : Out D) : Prop := Alike o.1 o'.1 ∧ o'.2 = o.2

omit [Dbl D] in
theorem AlikeOut.andThen {o o' : Out D} {f f' : Builder D → Out D} (h : AlikeOut o o')
    (hf : ∀ b b', Alike b b' → AlikeOut (f b) (f' b')) : AlikeOut (andThen o f) (andThen o' f') := by
  obtain ⟨b, e⟩ := o
  obtain ⟨b', e'⟩ := o'
  obtain ⟨h1, h2⟩ := h
  dsimp only at h1 h2
  subst h2
  cases e' with
  | none => exact hf b b' h1
  | some e => exact ⟨h1, rfl⟩

theorem Alike.loop {n : ℕ} {i : ℤ} {b b' : Builder D} (h : Alike b b') :
    Alike (newWptsLoop n i b) (newWptsLoop n i b') := by
  induction n generalizing i b b' with
  | zero => exact h
  | succ n ih =>
    refine ih ⟨?_, h.bumpers, ?_, ?_, ?_, ?_⟩
    · simp [h.path]
    · simp [h.guess]
    · intro l hl
      rcases List.mem_append.mp hl with g | g
      · exact h.full l g
      · simp at g
        simp [g]
    · intro l hl
      rcases List.mem_append.mp hl with g | g
      · exact h.full' l g
      · simp at g
        simp [g]
    · simp [h.counts]

theorem Alike.newWpts {k : ℕ} {b b' : Builder D} (h : Alike b b') : Alike (b.newWpts k) (b'.newWpts k) := by
  unfold Builder.newWpts
  rw [h.path]
  dsimp only
  split
  · exact h.loop
  · exact h

omit [Dbl D] in
theorem Alike.modify {i : ℕ} {f : Waypoint D → Waypoint D} {b b' : Builder D} (h : Alike b b') :
    AlikeOut (b.modifyWpt i f) (b'.modifyWpt i f) := by
  unfold modifyWpt
  rw [h.path]
  split
  · exact ⟨⟨rfl, h.bumpers, h.guess, h.full, h.full', h.counts⟩, rfl⟩
  · exact ⟨h, rfl⟩

theorem Alike.wptConstraint {i : ℕ} {c : Constraint D} {b b' : Builder D} (h : Alike b b') :
    AlikeOut (b.wptConstraint i c) (b'.wptConstraint i c) :=
  h.newWpts.modify

omit [Dbl D] in
theorem Alike.sgmtLoop {c : Constraint D} {n i : ℕ} {b b' : Builder D} (h : Alike b b') :
    AlikeOut (sgmtLoop c n i b) (sgmtLoop c n i b') := by
  induction n generalizing i b b' with
  | zero => exact ⟨h, rfl⟩
  | succ n ih => exact h.modify.andThen fun b b' h => h.modify.andThen fun b b' h => ih h

theorem Alike.sgmtConstraint {asserts : Bool} {i j : ℕ} {c : Constraint D} {b b' : Builder D} (h : Alike b b') :
    AlikeOut (b.sgmtConstraint asserts i j c) (b'.sgmtConstraint asserts i j c) := by
  unfold Builder.sgmtConstraint
  split
  · exact ⟨h, rfl⟩
  · exact h.newWpts.modify.andThen fun b b' h => h.sgmtLoop

omit [Dbl D] in
theorem Alike.recordAll {rec : Constraint D → Builder D → Out D}
    (hrec : ∀ c b b', Alike b b' → AlikeOut (rec c b) (rec c b')) {l : List (Res (Constraint D))}
    {b b' : Builder D} (h : Alike b b') : AlikeOut (recordAll rec l b) (recordAll rec l b') := by
  induction l generalizing b b' with
  | nil => exact ⟨h, rfl⟩
  | cons r l ih =>
    cases r with
    | error e => exact ⟨h, rfl⟩
    | ok c => exact (hrec c b b' h).andThen fun b b' h => ih h

omit [Dbl D] in
/-- The guesses of one waypoint are replaced. -/
theorem Alike.set {i : ℕ} {l l' : List (Pose2 D)} {b b' : Builder D} (h : Alike b b') (hl : l ≠ []) (hl' : l' ≠ []) :
    Alike { b with initialGuessPoints := b.initialGuessPoints.set i l }
      { b' with initialGuessPoints := b'.initialGuessPoints.set i l' } := by
  refine ⟨h.path, h.bumpers, by simp [h.guess], ?_, ?_, h.counts⟩
  · intro x hx
    rcases List.mem_or_eq_of_mem_set hx with g | rfl
    · exact h.full x g
    · exact hl
  · intro x hx
    rcases List.mem_or_eq_of_mem_set hx with g | rfl
    · exact h.full' x g
    · exact hl'

theorem Alike.wptGuess {i : ℕ} {p p' : Pose2 D} {b b' : Builder D} (h : Alike b b') :
    AlikeOut (b.wptInitialGuessPoint i p) (b'.wptInitialGuessPoint i p') := by
  unfold Builder.wptInitialGuessPoint
  have h := h.newWpts (k := i)
  generalize b.newWpts i = b at h ⊢
  generalize b'.newWpts i = b' at h ⊢
  dsimp only
  by_cases hi : i < b.initialGuessPoints.length
  · have hi' : i < b'.initialGuessPoints.length := by rw [h.guess]; exact hi
    rw [List.getElem?_eq_getElem hi, List.getElem?_eq_getElem hi']
    have h1 := h.full _ (List.getElem_mem hi)
    have h2 := h.full' _ (List.getElem_mem hi')
    rcases e : b.initialGuessPoints[i] with _ | ⟨q, qs⟩
    · exact absurd e h1
    rcases e' : b'.initialGuessPoints[i] with _ | ⟨q', qs'⟩
    · exact absurd e' h2
    exact ⟨h.set (by simp) (by simp), rfl⟩
  · rw [List.getElem?_eq_none (by omega), List.getElem?_eq_none (by rw [h.guess]; omega)]
    exact ⟨h, rfl⟩

theorem Alike.sgmtGuess {i : ℕ} {ps ps' : List (Pose2 D)} {b b' : Builder D} (h : Alike b b') :
    AlikeOut (b.sgmtInitialGuessPoints i ps) (b'.sgmtInitialGuessPoints i ps') := by
  unfold Builder.sgmtInitialGuessPoints
  dsimp only
  have h := h.newWpts (k := wadd i 1)
  generalize b.newWpts (wadd i 1) = b at h ⊢
  generalize b'.newWpts (wadd i 1) = b' at h ⊢
  generalize wadd i 1 = i
  by_cases hi : i < b.initialGuessPoints.length
  · have hi' : i < b'.initialGuessPoints.length := by rw [h.guess]; exact hi
    rw [List.getElem?_eq_getElem hi, List.getElem?_eq_getElem hi']
    have h1 := h.full _ (List.getElem_mem hi)
    have h2 := h.full' _ (List.getElem_mem hi')
    exact ⟨h.set (by simp [h1]) (by simp [h2]), rfl⟩
  · rw [List.getElem?_eq_none (by omega), List.getElem?_eq_none (by rw [h.guess]; omega)]
    exact ⟨h, rfl⟩

theorem Alike.exec {asserts : Bool} {op op' : Op D} {b b' : Builder D} (h : Alike b b') (ho : SameButGuess op op') :
    AlikeOut (op.exec asserts b) (op'.exec asserts b') := by
  cases ho with
  | wpt i p p' => exact h.wptGuess
  | sgmt i ps ps' => exact h.sgmtGuess
  | translation i x y a a' => exact h.wptConstraint.andThen fun b b' h => h.wptGuess
  | same =>
    cases op with
    | setDrivetrain d => exact ⟨⟨by simp [Op.exec, setDrivetrain, h.path], h.bumpers, h.guess, h.full, h.full', h.counts⟩, rfl⟩
    | poseWpt i x y a => exact h.wptConstraint.andThen fun b b' h => h.wptGuess
    | translationWpt i x y a => exact h.wptConstraint.andThen fun b b' h => h.wptGuess
    | wptInitialGuessPoint i p => exact h.wptGuess
    | sgmtInitialGuessPoints i ps => exact h.sgmtGuess
    | addBumpers o =>
      exact ⟨⟨h.path, by simp [Op.exec, Builder.addBumpers, h.bumpers], h.guess, h.full, h.full', h.counts⟩, rfl⟩
    | wptObstacle i o =>
      simp only [Op.exec, wptObstacle, h.bumpers]
      exact Alike.recordAll (fun c b b' h => Alike.wptConstraint (c := c) h) h
    | sgmtObstacle i j o =>
      simp only [Op.exec, sgmtObstacle, h.bumpers]
      exact Alike.recordAll (fun c b b' h => Alike.sgmtConstraint (c := c) h) h
    | wptConstraint i c => exact h.wptConstraint
    | sgmtConstraint i j c => exact h.sgmtConstraint
    | controlIntervalCounts cs => exact ⟨⟨h.path, h.bumpers, h.guess, h.full, h.full', rfl⟩, rfl⟩
    | addIntermediateCallback k =>
      exact ⟨⟨by simp [Op.exec, addIntermediateCallback, h.path], h.bumpers, h.guess, h.full, h.full', h.counts⟩, rfl⟩

theorem alike_run {asserts : Bool} {ops ops' : List (Op D)} (ho : List.Forall₂ SameButGuess ops ops')
    {b b' : Builder D} (h : Alike b b') : Alike (run asserts ops b) (run asserts ops' b') := by
  induction ho generalizing b b' with
  | nil => exact h
  | cons h1 _ ih => exact ih (h.exec h1).1

omit [Dbl D] in
theorem alike_new : Alike (Builder.new : Builder D) Builder.new :=
  ⟨rfl, rfl, rfl, by simp [Builder.new], by simp [Builder.new], rfl⟩

/-- C115: whatever is guessed, the path, its drivetrain, callbacks, bumpers and control interval counts are the same … -/
theorem C115_path (asserts : Bool) (ops ops' : List (Op D)) (ho : List.Forall₂ SameButGuess ops ops') :
    let t := table (run asserts ops Builder.new)
    let t' := table (run asserts ops' Builder.new)
    t' = { t with guess := t'.guess } := by
  have h := alike_run (asserts := asserts) ho alike_new
  intro t t'
  simp only [t, t', table, h.path, h.bumpers, h.counts]

/-- C115: … and every call ends the same way. -/
theorem C115_calls (asserts : Bool) (ops ops' : List (Op D)) (ho : List.Forall₂ SameButGuess ops ops')
    (op op' : Op D) (h : SameButGuess op op') :
    (op'.exec asserts (run asserts ops' Builder.new)).2 = (op.exec asserts (run asserts ops Builder.new)).2 :=
  ((alike_run ho alike_new).exec h).2

/-- C115: the generators made of two such builders fail alike, or state the same problem to be started from possibly
different values. -/
theorem C115_problem (asserts : Bool) (ops ops' : List (Op D)) (ho : List.Forall₂ SameButGuess ops ops') (handle : ℤ)
    (hN : sampleCount (table (run asserts ops Builder.new)).counts < 2 ^ 64) :
    UpToStart (Generator.construct (run asserts ops Builder.new) handle)
      (Generator.construct (run asserts ops' Builder.new) handle) := by
  have h := alike_run (asserts := asserts) ho alike_new
  have hb : Reachable (run asserts ops (Builder.new : Builder D)) := ⟨_, _, rfl⟩
  have hb' : Reachable (run asserts ops' (Builder.new : Builder D)) := ⟨_, _, rfl⟩
  generalize run asserts ops Builder.new = b at *
  generalize run asserts ops' Builder.new = b' at *
  have ec : (table b').counts = (table b).counts := h.counts
  have ew : (table b').waypoints = (table b).waypoints := by simp only [table, h.path]
  have ed : (table b').drivetrain = (table b).drivetrain := by simp only [table, h.path]
  obtain ⟨h1, h2, h3, -⟩ := C30_outcomes b hb handle hN
  obtain ⟨h1', h2', h3', -⟩ := C30_outcomes b' hb' handle (by rwa [ec])
  rw [ec, ew] at h2' h3'
  rw [ew] at h1'
  rw [ed] at h3'
  by_cases g : (table b).waypoints = 0
  · rw [h1 g, h1' g]
    exact rfl
  by_cases g' : (table b).waypoints ≤ (table b).counts.length
  · rw [h2 (by omega) g', h2' (by omega) g']
    exact rfl
  rcases g'' : (table b).drivetrain with _ | dr
  · rw [h3 (by omega) g'', h3' (by omega) g'']
    exact rfl
  · obtain ⟨sol, -, -, e⟩ := construct_closed hb ⟨g'', by omega, hN⟩ handle
    obtain ⟨sol', -, -, e'⟩ := construct_closed hb' ⟨ed.trans g'', by rw [ec, ew]; omega, by rwa [ec]⟩ handle
    rw [e, e', h.path, h.counts]
    exact rfl

/-- C115: the same trajectories drive the path, and the same are fastest. -/
theorem C115_solves (asserts : Bool) (ops ops' : List (Op ℝ)) (ho : List.Forall₂ SameButGuess ops ops')
    (dr : SwerveDrivetrain ℝ) (T : Traj) :
    (Solves (run asserts ops' Builder.new) dr T ↔ Solves (run asserts ops Builder.new) dr T) ∧
    (Fastest (run asserts ops' Builder.new) dr T ↔ Fastest (run asserts ops Builder.new) dr T) := by
  have h := alike_run (asserts := asserts) ho alike_new
  have hb : Reachable (run asserts ops (Builder.new : Builder ℝ)) := ⟨_, _, rfl⟩
  have hb' : Reachable (run asserts ops' (Builder.new : Builder ℝ)) := ⟨_, _, rfl⟩
  generalize run asserts ops Builder.new = b at *
  generalize run asserts ops' Builder.new = b' at *
  have ec : (table b').counts = (table b).counts := h.counts
  have ew : (table b').waypoints = (table b).waypoints := by simp only [table, h.path]
  have ed : (table b').drivetrain = (table b).drivetrain := by simp only [table, h.path]
  have hr : Ready b' dr ↔ Ready b dr := by
    constructor
    · rintro ⟨r1, r2, r3⟩
      exact ⟨ed ▸ r1, by rw [← ec, ← ew]; exact r2, ec ▸ r3⟩
    · rintro ⟨r1, r2, r3⟩
      exact ⟨ed.trans r1, by rw [ec, ew]; exact r2, by rw [ec]; exact r3⟩
  have ho : ∀ T, Obeys (table b') dr T ↔ Obeys (table b) dr T := by
    have e : table b' = { table b with guess := (table b').guess } := by
      simp only [table, h.path, h.bumpers, h.counts]
    intro T
    rw [e]
    exact ⟨fun ⟨o1, o2, o3, o4, o5, o6⟩ => ⟨o1, o2, o3, o4, o5, o6⟩,
      fun ⟨o1, o2, o3, o4, o5, o6⟩ => ⟨o1, o2, o3, o4, o5, o6⟩⟩
  have hs : ∀ T, Solves b' dr T ↔ Solves b dr T := fun T =>
    ⟨fun g => (solves_iff hb (hr.mp g.ready) g.radius).mpr ((ho T).mp g.obeys),
      fun g => (solves_iff hb' (hr.mpr g.ready) g.radius).mpr ((ho T).mpr g.obeys)⟩
  refine ⟨hs T, ⟨fun g => ⟨(hs T).mp g.solves, fun T' g' => ?_⟩, fun g => ⟨(hs T).mpr g.solves, fun T' g' => ?_⟩⟩⟩
  · have := g.least T' ((hs T').mpr g')
    rwa [ec] at this
  · rw [ec]
    exact g.least T' ((hs T').mp g')

/-- A robot that stays where it is guessed to be. -/
noncomputable def guessOps (x y : ℝ) : List (Op ℝ) :=
  [.setDrivetrain demoRobot, .wptInitialGuessPoint 0 (.ofXYHeading x y 0),
    .wptConstraint 0 (.linearVelocityMaxMagnitude 0)]

/-- The solver starts where the guess says: the same problem from two start values. -/
example : List.Forall₂ SameButGuess (guessOps 1 2) (guessOps 3 4) ∧
    ∀ x y, ∃ g, Generator.construct (run true (guessOps x y) Builder.new) 0 = .ok g ∧
      ((decode g.vars g.problem.values).state 0).pos = ⟨x, y⟩ := by
  refine ⟨.cons (.same _) (.cons (.wpt _ _ _) (.cons (.same _) .nil)), fun x y => ?_⟩
  obtain ⟨e, hr⟩ : table (run true (guessOps x y) Builder.new) = PathTable.empty.afterAll (guessOps x y) ∧
      Ready (run true (guessOps x y) Builder.new) demoRobot := by
    refine ready_of ?_ _ rfl ?_ ?_ ?_ <;>
    simp [guessOps, PathTable.AcceptsAll, PathTable.Accepts, PathTable.afterAll, PathTable.after, PathTable.empty,
      PathTable.reach, PathTable.requireAt, PathTable.guessAt, sampleCount]
  have hb : Reachable (run true (guessOps x y) Builder.new) := ⟨_, _, rfl⟩
  generalize run true (guessOps x y) Builder.new = b at *
  obtain ⟨sol, -, -, h3⟩ := construct_closed hb hr 0
  obtain ⟨sol', d, c1, -, -, c4, -⟩ := C43_start _ hb demoRobot hr 0 _ h3 _ rfl
  have hp : (table b).guess 0 = [.ofXYHeading x y 0] := by
    rw [e]
    simp [guessOps, PathTable.afterAll, PathTable.after, PathTable.empty,
      PathTable.reach, PathTable.requireAt, PathTable.guessAt]
  obtain ⟨p, ps, q1, q2, q3, -⟩ := C05_start _ _ sol' c1 hr.size
  change b.initialGuessPoints.getD 0 _ = _ at hp
  rw [List.getD_eq_getElem?_getD, q1, Option.getD_some] at hp
  cases hp
  obtain ⟨r1, r2, -⟩ := c4 0 (by rw [sampleCount]; omega)
  rw [q2] at r1
  rw [q3] at r2
  exact ⟨_, h3, Complex.ext (Option.some.inj r1).symm (Option.some.inj r2).symm⟩

end Trajopt.Props
