import Verif.Spec.Watch
import Verif.Props.Examples

/-!
# C127 Watching a generation does not change it
-/

set_option autoImplicit false

namespace Trajopt.Props

open Spec Builder

variable {D : Type}

/-- The builder with other callbacks. -/
def heard (cs : List ℕ) (b : Builder D) : Builder D := { b with path := { b.path with callbacks := cs } }

/-- The outcome with other callbacks. -/
def heardOut (cs : List ℕ) (o : Out D) : Out D := (heard cs o.1, o.2)

theorem heard_andThen {cs : List ℕ} {o : Out D} {f : Builder D → Out D}
    (hf : ∀ b, f (heard cs b) = heardOut cs (f b)) : andThen (heardOut cs o) f = heardOut cs (andThen o f) := by
  obtain ⟨b, _ | e⟩ := o
  · exact hf b
  · rfl

theorem heard_modify (cs : List ℕ) (i : ℕ) (f : Waypoint D → Waypoint D) (b : Builder D) :
    (heard cs b).modifyWpt i f = heardOut cs (b.modifyWpt i f) := by
  unfold modifyWpt
  change (if i < b.path.waypoints.length then _ else _) = _
  split <;> rfl

theorem heard_sgmtLoop (cs : List ℕ) (c : Constraint D) (n i : ℕ) (b : Builder D) :
    sgmtLoop c n i (heard cs b) = heardOut cs (sgmtLoop c n i b) := by
  induction n generalizing i b with
  | zero => rfl
  | succ n ih =>
    simp only [sgmtLoop, heard_modify]
    exact heard_andThen fun b => by
      rw [heard_modify]
      exact heard_andThen fun b => ih _ b

theorem heard_recordAll {cs : List ℕ} {rec : Constraint D → Builder D → Out D}
    (hrec : ∀ c b, rec c (heard cs b) = heardOut cs (rec c b)) (l : List (Res (Constraint D))) (b : Builder D) :
    recordAll rec l (heard cs b) = heardOut cs (recordAll rec l b) := by
  induction l generalizing b with
  | nil => rfl
  | cons r l ih =>
    cases r with
    | error e => rfl
    | ok c =>
      simp only [recordAll, hrec]
      exact heard_andThen fun b => ih b

variable [Dbl D]

theorem heard_loop (cs : List ℕ) (n : ℕ) (i : ℤ) (b : Builder D) :
    newWptsLoop n i (heard cs b) = heard cs (newWptsLoop n i b) := by
  induction n generalizing i b with
  | zero => rfl
  | succ n ih =>
    rw [newWptsLoop, newWptsLoop, ← ih]
    rfl

theorem heard_newWpts (cs : List ℕ) (k : ℕ) (b : Builder D) : (heard cs b).newWpts k = heard cs (b.newWpts k) := by
  unfold newWpts
  change (if _ > toInt64 (wsub b.path.waypoints.length 1) then _ else _) = _
  dsimp only
  split
  · exact heard_loop ..
  · rfl

theorem heard_wptConstraint (cs : List ℕ) (i : ℕ) (c : Constraint D) (b : Builder D) :
    (heard cs b).wptConstraint i c = heardOut cs (b.wptConstraint i c) := by
  unfold wptConstraint
  rw [heard_newWpts, heard_modify]

theorem heard_sgmtConstraint (cs : List ℕ) (asserts : Bool) (i j : ℕ) (c : Constraint D) (b : Builder D) :
    (heard cs b).sgmtConstraint asserts i j c = heardOut cs (b.sgmtConstraint asserts i j c) := by
  unfold sgmtConstraint
  split
  · rfl
  · rw [heard_newWpts, heard_modify]
    exact heard_andThen fun b => heard_sgmtLoop ..

theorem heard_wptGuess (cs : List ℕ) (i : ℕ) (p : Pose2 D) (b : Builder D) :
    (heard cs b).wptInitialGuessPoint i p = heardOut cs (b.wptInitialGuessPoint i p) := by
  unfold wptInitialGuessPoint
  rw [heard_newWpts]
  generalize b.newWpts i = b
  have : (heard cs b).initialGuessPoints = b.initialGuessPoints := rfl
  dsimp only
  rw [this]
  rcases b.initialGuessPoints[i]? with _ | _ | _ <;> rfl

theorem heard_sgmtGuess (cs : List ℕ) (i : ℕ) (ps : List (Pose2 D)) (b : Builder D) :
    (heard cs b).sgmtInitialGuessPoints i ps = heardOut cs (b.sgmtInitialGuessPoints i ps) := by
  unfold sgmtInitialGuessPoints
  dsimp only
  rw [heard_newWpts]
  generalize b.newWpts _ = b
  have : (heard cs b).initialGuessPoints = b.initialGuessPoints := rfl
  rw [this]
  split <;> rfl

theorem heard_exec (cs : List ℕ) (asserts : Bool) (op : Op D) (h : Watches op = false) (b : Builder D) :
    op.exec asserts (heard cs b) = heardOut cs (op.exec asserts b) := by
  cases op with
  | setDrivetrain d => rfl
  | poseWpt i x y a =>
    simp only [Op.exec, poseWpt, heard_wptConstraint]
    exact heard_andThen fun b => heard_wptGuess ..
  | translationWpt i x y a =>
    simp only [Op.exec, translationWpt, heard_wptConstraint]
    exact heard_andThen fun b => heard_wptGuess ..
  | wptInitialGuessPoint i p => exact heard_wptGuess ..
  | sgmtInitialGuessPoints i ps => exact heard_sgmtGuess ..
  | addBumpers o => rfl
  | wptObstacle i o => exact heard_recordAll (fun c b => heard_wptConstraint ..) _ b
  | sgmtObstacle i j o => exact heard_recordAll (fun c b => heard_sgmtConstraint ..) _ b
  | wptConstraint i c => exact heard_wptConstraint ..
  | sgmtConstraint i j c => exact heard_sgmtConstraint ..
  | controlIntervalCounts cs => rfl
  | addIntermediateCallback k => cases h

theorem heard_run (asserts : Bool) : ∀ (ops : List (Op D)) (cs : List ℕ) (b : Builder D), ∃ cs',
    run asserts ops (heard cs b) = heard cs' (run asserts (ops.filter fun op => !Watches op) b)
  | [], cs, b => ⟨cs, rfl⟩
  | op :: ops, cs, b => by
    by_cases h : Watches op = true
    · cases op <;> cases h
      exact heard_run asserts ops _ b
    · rw [Bool.not_eq_true] at h
      rw [List.filter_cons_of_pos (by simp [h])]
      change ∃ cs', run asserts ops (op.exec asserts (heard cs b)).1 = heard cs' (run asserts _ (op.exec asserts b).1)
      rw [heard_exec cs asserts op h]
      exact heard_run asserts ops cs _

theorem heard_same {asserts : Bool} {ops ops' : List (Op D)} (h : SameUnwatched ops ops') :
    ∃ cs, run asserts ops' Builder.new = heard cs (run asserts ops Builder.new) := by
  obtain ⟨c, hc⟩ := heard_run asserts ops [] Builder.new
  obtain ⟨c', hc'⟩ := heard_run asserts ops' [] Builder.new
  refine ⟨c', ?_⟩
  change run asserts ops Builder.new = _ at hc
  change run asserts ops' Builder.new = _ at hc'
  rw [hc, hc', h]
  rfl

theorem heard_construct (cs : List ℕ) (b : Builder D) (handle handle' : ℤ) :
    Generator.construct (heard cs b) handle' = (fun g => { g with path := { g.path with callbacks := cs }, handle := handle' }) <$>
      Generator.construct b handle := by
  simp only [Generator.construct, map_bind, map_pure]
  rfl

/-- C127: with or without callbacks, registered whenever, calls record the same path … -/
theorem C127_path (asserts : Bool) (ops ops' : List (Op D)) (h : SameUnwatched ops ops') :
    let t := table (run asserts ops Builder.new)
    let t' := table (run asserts ops' Builder.new)
    t' = { t with callbacks := t'.callbacks } := by
  obtain ⟨cs, e⟩ := heard_same (asserts := asserts) h
  simp only [e]
  rfl

/-- C127: … end the same way … -/
theorem C127_calls (asserts : Bool) (ops ops' : List (Op D)) (h : SameUnwatched ops ops') (op : Op D) :
    (op.exec asserts (run asserts ops' Builder.new)).2 = (op.exec asserts (run asserts ops Builder.new)).2 := by
  obtain ⟨cs, e⟩ := heard_same (asserts := asserts) h
  rw [e]
  by_cases hw : Watches op = true
  · cases op <;> cases hw
    rfl
  · rw [heard_exec cs asserts op (by simpa using hw)]
    rfl

/-- C127: … and lead to the same problem with the same start values, whatever the handle. -/
theorem C127_problem (asserts : Bool) (ops ops' : List (Op D)) (h : SameUnwatched ops ops') (handle handle' : ℤ) :
    SameTask (Generator.construct (run asserts ops Builder.new) handle)
      (Generator.construct (run asserts ops' Builder.new) handle') := by
  obtain ⟨cs, e⟩ := heard_same (asserts := asserts) h
  rw [e]
  generalize run asserts ops Builder.new = b
  rw [heard_construct cs b handle handle']
  rcases Generator.construct b handle with e | g
  · exact rfl
  · exact ⟨rfl, rfl, rfl⟩

/-- The first example program, with callbacks registered at its beginning and its end. -/
example (asserts : Bool) : SameUnwatched (Examples.cpp1 : List (Op ℝ))
      ([.addIntermediateCallback 7] ++ Examples.cpp1 ++ [.addIntermediateCallback 8]) ∧
    ∃ g g' : Generator ℝ, Generator.construct (run asserts Examples.cpp1 Builder.new) 1 = .ok g ∧
      Generator.construct (run asserts ([.addIntermediateCallback 7] ++ Examples.cpp1 ++ [.addIntermediateCallback 8])
        Builder.new) 2 = .ok g' ∧ g'.problem = g.problem ∧ g'.handle = 2 := by
  have h : SameUnwatched (Examples.cpp1 : List (Op ℝ))
      ([.addIntermediateCallback 7] ++ Examples.cpp1 ++ [.addIntermediateCallback 8]) := by
    simp [SameUnwatched, Watches]
  refine ⟨h, ?_⟩
  obtain ⟨T, hT⟩ := (shipped1 asserts).2
  obtain ⟨sol, -, -, e⟩ := construct_closed hT.solves.reachable hT.solves.ready 1
  obtain ⟨cs, ec⟩ := heard_same (asserts := asserts) h
  generalize run asserts (Examples.cpp1 : List (Op ℝ)) Builder.new = b at e ec ⊢
  generalize closedGenerator (D := ℝ) _ _ _ _ _ = g at e
  refine ⟨g, { g with path := { g.path with callbacks := cs }, handle := 2 }, e, ?_, rfl, rfl⟩
  rw [ec, heard_construct cs b 1 2, e]
  rfl

end Trajopt.Props

/-! ### What callbacks do with what they get -/

namespace Trajopt.Props

open Spec

variable {D : Type}

/-- The same place, with different solutions for the callbacks. -/
inductive AlikePhase : Phase D → Phase D → Prop
  | same (p : Phase D) : AlikePhase p p
  | calling (s s' : SwerveSolution D) (rest : List ℕ) : AlikePhase (.calling s rest) (.calling s' rest)

structure AlikeWorld (w w' : World D) : Prop where
  flag : w'.flag = w.flag
  clock : w'.clock = w.clock
  lastFrame : w'.lastFrame = w.lastFrame
  rounds : w'.rounds = w.rounds
  calls : w'.calls.map (fun c => (c.gen, c.callback, c.handle)) = w.calls.map (fun c => (c.gen, c.callback, c.handle))
  generators : ∀ g, (w'.threads g).generator = (w.threads g).generator
  phases : ∀ g, AlikePhase (w.threads g).phase (w'.threads g).phase

theorem AlikeWorld.set {w w' : World D} (h : AlikeWorld w w') (g : ℕ) {t t' : Thread D} (hg : t'.generator = t.generator)
    (hp : AlikePhase t.phase t'.phase) : AlikeWorld (w.set g t) (w'.set g t') where
  flag := h.flag
  clock := h.clock
  lastFrame := h.lastFrame
  rounds := h.rounds
  calls := h.calls
  generators k := by
    by_cases hk : k = g
    · subst hk; rw [set_same, set_same, hg]
    · rw [set_other _ _ hk, set_other _ _ hk, h.generators]
  phases k := by
    by_cases hk : k = g
    · subst hk; rw [set_same, set_same]; exact hp
    · rw [set_other _ _ hk, set_other _ _ hk]; exact h.phases k

theorem AlikeWorld.put {w w' : World D} (h : AlikeWorld w w') (g : ℕ) (t : Thread D) : AlikeWorld (w.set g t) (w'.set g t) :=
  h.set g rfl (.same _)

theorem alikeWorld_call (msg : Exit → String) {w w' : World D} (h : AlikeWorld w w') (g : ℕ)
    (edit edit' : SwerveSolution D → SwerveSolution D) :
    AlikeWorld (w.step msg (.call g edit)) (w'.step msg (.call g edit')) := by
  have hg := h.generators g
  have hp := h.phases g
  simp only [World.step]
  generalize hq : (w.threads g).phase = q at hp
  generalize hq' : (w'.threads g).phase = q' at hp
  cases hp with
  | same =>
    cases q <;> try exact h
    rename_i s rest
    cases rest with
    | nil =>
      exact h.set g (t := { w.threads g with phase := .polling })
        (t' := { w'.threads g with phase := .polling }) hg (.same _)
    | cons c rest =>
      have := h.set g (t := { w.threads g with phase := .calling (edit s) rest })
        (t' := { w'.threads g with phase := .calling (edit' s) rest }) hg (.calling ..)
      exact { this with calls := by simp [h.calls, hg] }
  | calling s s' rest =>
    cases rest with
    | nil =>
      exact h.set g (t := { w.threads g with phase := .polling })
        (t' := { w'.threads g with phase := .polling }) hg (.same _)
    | cons c rest =>
      have := h.set g (t := { w.threads g with phase := .calling (edit s) rest })
        (t' := { w'.threads g with phase := .calling (edit' s') rest }) hg (.calling ..)
      exact { this with calls := by simp [h.calls, hg] }

theorem alikeWorld_step (msg : Exit → String) {w w' : World D} (h : AlikeWorld w w') {e e' : Event D} (he : SameEvent e e') :
    AlikeWorld (w.step msg e) (w'.step msg e') := by
  cases he with
  | call g edit edit' => exact alikeWorld_call msg h g edit edit'
  | same =>
    cases e with
    | tick ns => exact { h with clock := by simp [World.step, h.clock] }
    | cancel => exact { h with flag := rfl }
    | start g =>
      have hg := h.generators g
      have hp := h.phases g
      simp only [World.step, hg]
      generalize (w.threads g).phase = q at hp
      generalize (w'.threads g).phase = q' at hp
      cases hp with
      | calling => exact h
      | same => cases q <;> first | exact h | exact { h.put g ⟨(w.threads g).generator, .solving⟩ with flag := rfl }
    | iterate g v =>
      have hg := h.generators g
      have hp := h.phases g
      simp only [World.step, hg]
      generalize (w.threads g).phase = q at hp
      generalize (w'.threads g).phase = q' at hp
      cases hp with
      | calling => exact h
      | same =>
        cases q <;> first
          | exact h
          | exact { h.put g ⟨(w.threads g).generator.withValues v, .entered⟩ with
              lastFrame := by rw [h.lastFrame, h.clock] }
    | readClock g =>
      have hg := h.generators g
      have hp := h.phases g
      simp only [World.step, hg]
      generalize (w.threads g).phase = q at hp
      generalize (w'.threads g).phase = q' at hp
      cases hp with
      | calling => exact h
      | same => cases q <;> first | exact h | (rw [h.clock]; exact h.put g _)
    | checkRate g =>
      have hg := h.generators g
      have hp := h.phases g
      simp only [World.step, hg]
      rw [h.lastFrame]
      generalize (w.threads g).phase = q at hp
      generalize (w'.threads g).phase = q' at hp
      cases hp with
      | calling => exact h
      | same =>
        cases q <;> try exact h
        cases w.lastFrame with
        | none => exact h
        | some last => exact h.put g _
    | stamp g =>
      have hg := h.generators g
      have hp := h.phases g
      simp only [World.step, hg]
      generalize (w.threads g).phase = q at hp
      generalize (w'.threads g).phase = q' at hp
      cases hp with
      | calling => exact h
      | same =>
        cases q <;> try exact h
        cases (w.threads g).generator.constructSwerveSolution with
        | error f => exact { h.put g ⟨(w.threads g).generator, .crashed f⟩ with lastFrame := rfl }
        | ok s =>
          exact { h.put g ⟨(w.threads g).generator, .calling s (w.threads g).generator.path.callbacks⟩ with
            lastFrame := rfl
            rounds := by rw [h.rounds] }
    | throw g =>
      have hg := h.generators g
      have hp := h.phases g
      simp only [World.step, hg]
      generalize (w.threads g).phase = q at hp
      generalize (w'.threads g).phase = q' at hp
      cases hp with
      | calling s s' rest =>
        cases rest with
        | nil => exact h
        | cons c rest => exact { h.put g ⟨(w.threads g).generator, .threw⟩ with calls := by simp [h.calls] }
      | same =>
        cases q <;> try exact h
        rename_i s rest
        cases rest with
        | nil => exact h
        | cons c rest => exact { h.put g ⟨(w.threads g).generator, .threw⟩ with calls := by simp [h.calls] }
    | poll g =>
      have hg := h.generators g
      have hp := h.phases g
      simp only [World.step, hg]
      generalize (w.threads g).phase = q at hp
      generalize (w'.threads g).phase = q' at hp
      cases hp with
      | calling => exact h
      | same =>
        cases q <;> try exact h
        simp only [h.flag]
        split
        · split <;> exact h.put g _
        · exact h.put g _
    | finish g c v =>
      have hg := h.generators g
      have hp := h.phases g
      simp only [World.step, hg]
      generalize (w.threads g).phase = q at hp
      generalize (w'.threads g).phase = q' at hp
      cases hp with
      | calling => exact h
      | same =>
        cases q <;> try exact h
        cases Generator.conclude msg (.other c) ((w.threads g).generator.withValues v) <;> exact h.put g _
    | call g edit => exact alikeWorld_call msg h g edit edit

theorem alikeWorld_run (msg : Exit → String) {es es' : List (Event D)} (he : SameEvents es es') :
    ∀ {w w' : World D}, AlikeWorld w w' → AlikeWorld (w.run msg es) (w'.run msg es') := by
  induction he with
  | nil => exact fun h => h
  | cons h _ ih => exact fun hw => ih (alikeWorld_step msg hw h)

theorem AlikeWorld.outcome {w w' : World D} (h : AlikeWorld w w') : SameOutcome w w' where
  flag := h.flag
  clock := h.clock
  lastFrame := h.lastFrame
  rounds := h.rounds
  calls := h.calls
  generators := h.generators
  returned g r := by
    have hp := h.phases g
    generalize (w.threads g).phase = q at hp
    generalize (w'.threads g).phase = q' at hp
    cases hp <;> simp
  threw g := by
    have hp := h.phases g
    generalize (w.threads g).phase = q at hp
    generalize (w'.threads g).phase = q' at hp
    cases hp <;> simp
  crashed g f := by
    have hp := h.phases g
    generalize (w.threads g).phase = q at hp
    generalize (w'.threads g).phase = q' at hp
    cases hp <;> simp

/-- C127: what callbacks change in the solutions that they are given reaches the callbacks after them and nothing else: not the
variables, not the results of `Generate`, not the next round. -/
theorem C127_edits (msg : Exit → String) (w : World D) (es es' : List (Event D)) (h : SameEvents es es') :
    SameOutcome (w.run msg es) (w.run msg es') :=
  (alikeWorld_run msg h ⟨rfl, rfl, rfl, rfl, rfl, fun _ => rfl, fun _ => .same _⟩).outcome

theorem alikeWorld_refuse {w w' : World D} (h : AlikeWorld w w') (g : ℕ) (v : ℕ → D) :
    AlikeWorld (w.refuse g v) (w'.refuse g v) := by
  have hg := h.generators g
  have hp := h.phases g
  simp only [World.refuse, hg]
  generalize (w.threads g).phase = q at hp
  generalize (w'.threads g).phase = q' at hp
  cases hp with
  | calling s s' rest => cases rest <;> first | exact h | exact h.put g _
  | same =>
    cases q with
    | solving => exact h.put g _
    | passed now => exact { h.put g ⟨(w.threads g).generator, .threw⟩ with lastFrame := rfl }
    | calling s rest => cases rest <;> first | exact h | exact h.put g _
    | polling =>
      simp only [h.flag]
      split
      · exact h.put g _
      · exact h
    | _ => exact h

theorem alikeWorld_memRun (msg : Exit → String) {rs rs' : List (MemEvent D)} (hr : SameMemEvents rs rs') :
    ∀ {w w' : World D}, AlikeWorld w w' → AlikeWorld (w.memRun msg rs) (w'.memRun msg rs') := by
  induction hr with
  | nil => exact fun h => h
  | plain h _ ih => exact fun hw => ih (alikeWorld_step msg hw h)
  | refuse g v _ ih => exact fun hw => ih (alikeWorld_refuse hw g v)

/-- C127: also where memory runs out. -/
theorem C127_memory (msg : Exit → String) (w : World D) (rs rs' : List (MemEvent D)) (h : SameMemEvents rs rs') :
    SameOutcome (w.memRun msg rs) (w.memRun msg rs') :=
  (alikeWorld_memRun msg h ⟨rfl, rfl, rfl, rfl, rfl, fun _ => rfl, fun _ => .same _⟩).outcome

/-- One callback empties the solution that it is given; the next one gets that.  `Generate` returns the same. -/
example : ∃ (gens : ℕ → Generator ℝ) (s : SwerveSolution ℝ) (r : GenResult ℝ),
    let es := fun edit => [.start 0, .iterate 0 0, .tick (10 ^ 9), .readClock 0, .checkRate 0, .stamp 0, .call 0 edit,
      .call 0 id, .call 0 id, .poll 0, .finish 0 0 0]
    let w := (World.new gens).run (fun _ => "stop") (es id)
    let w' := (World.new gens).run (fun _ => "stop") (es fun s => { s with x := [] })
    SameEvents (es id) (es fun s => { s with x := [] }) ∧
    w.calls = [⟨0, 7, s, 0⟩, ⟨0, 8, s, 0⟩] ∧ w'.calls = [⟨0, 7, s, 0⟩, ⟨0, 8, { s with x := [] }, 0⟩] ∧
    (w.threads 0).phase = .returned r ∧ (w'.threads 0).phase = .returned r := by
  obtain ⟨gens, hg⟩ := demo_process
  obtain ⟨hs, hc, hh⟩ := hg 0
  obtain ⟨s, hs⟩ := hs 0
  have hc' : ((gens 0).withValues 0).path.callbacks = [7, 8] := hc
  have hh' : ((gens 0).withValues 0).handle = 0 := hh
  have hv : ((gens 0).withValues 0).withValues 0 = (gens 0).withValues 0 := rfl
  have hr : ((gens 0).withValues 0).conclude (fun _ => "stop") (.other 0) = .ok (.ok s) := by
    simp [Generator.conclude, Exit.toInt, hs]
  have he : SameEvents [.start 0, .iterate 0 0, .tick (10 ^ 9), .readClock 0, .checkRate 0, .stamp 0, .call 0 id,
      .call 0 id, .call 0 id, .poll 0, .finish 0 0 0] [.start 0, .iterate 0 0, .tick (10 ^ 9), .readClock 0, .checkRate 0,
      .stamp 0, .call 0 fun s => { s with x := [] }, .call 0 id, .call 0 id, .poll 0,
      (.finish 0 0 0 : Event ℝ)] := by
    repeat first | exact .nil | refine .cons (.same _) ?_ | refine .cons (.call ..) ?_
  refine ⟨gens, s, .ok s, he, ?_, ?_, ?_, ?_⟩ <;>
    simp [World.run, World.step, World.set, World.new, tooSoon, hs, hc', hh', hv, hr]

/-- After the first callback has emptied the solution there is no memory for the second one. -/
example (g : ℕ) : SameMemEvents (D := ℝ) [.plain (.start g), .plain (.call g id), .refuse g 0, .plain (.start g)]
    [.plain (.start g), .plain (.call g fun s => { s with x := [] }), .refuse g 0, .plain (.start g)] :=
  .plain (.same _) (.plain (.call ..) (.refuse _ _ (.plain (.same _) .nil)))

end Trajopt.Props
