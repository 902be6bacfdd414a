import Verif.Spec.FFI
import Verif.Props.Runtime
import Verif.Props.Trajectory
import Verif.Props.Obstacle

/-!
# C51–C54, C62, C63 The Rust interface
-/

set_option autoImplicit false

namespace Trajopt.Props

open Spec Builder

section AnyScalar
variable {D : Type} [Dbl D]

omit [Dbl D] in
theorem pushAll_eq {α β : Type} (f : α → β) (l : List α) : Rust.pushAll f l = l.map f := by
  have : ∀ acc : List β, l.foldl (fun acc a => acc ++ [f a]) acc = acc ++ l.map f := by
    induction l with
    | nil => simp
    | cons a l ih => intro acc; rw [List.foldl_cons, ih]; simp
  simpa [Rust.pushAll] using this []

omit [Dbl D] in
theorem pointsLoop_eq (x y : List D) (hxy : x.length = y.length) : ∀ n i, i + n = x.length →
    Rust.pointsLoop x y n i = .ok (List.zipWith (⟨·, ·⟩) (x.drop i) (y.drop i)) := by
  intro n
  induction n with
  | zero =>
    intro i h
    rw [List.drop_eq_nil_of_le (by omega)]
    rfl
  | succ n ih =>
    intro i h
    have hx : i < x.length := by omega
    have hy : i < y.length := by omega
    rw [Rust.pointsLoop, vat_ok hx, vat_ok hy, ih (i + 1) (by omega),
      List.drop_eq_getElem_cons hx, List.drop_eq_getElem_cons hy]
    rfl

/-! ### C51 -/

/-- C51: a Rust call has exactly the effect of its C++ counterpart. -/
theorem C51_call (asserts : Bool) (c : RustCall D) (b : Builder D) :
    (BadArgument asserts c → Rust.exec asserts c b = (b, some .assertFailed)) ∧
    (¬ BadArgument asserts c → Rust.exec asserts c b =
      match counterpart c with
      | some op => op.exec asserts b
      | none => (b, none)) := by
  have hgood : ¬ BadArgument asserts c → ∀ m, mustBeNonneg c = some m →
      (asserts && !Dbl.le (Num.lit 0) m) = false := by
    intro h m hm
    by_contra hne
    simp only [Bool.not_eq_false, Bool.and_eq_true, Bool.not_eq_true'] at hne
    exact h ⟨hne.1, m, hm, hne.2⟩
  cases c with
  | sgmt_polygon_obstacle i j x y r =>
    refine ⟨by simp [BadArgument, mustBeNonneg], fun _ => ?_⟩
    by_cases h : x.length = y.length
    · simp only [Rust.exec, counterpart, h, ne_eq, not_true_eq_false, if_false, if_true]
      rw [← h, pointsLoop_eq x y h _ 0 (by omega)]
      rfl
    · simp [Rust.exec, counterpart, h]
  | set_drivetrain d =>
    refine ⟨by simp [BadArgument, mustBeNonneg], fun _ => ?_⟩
    simp only [Rust.exec, pushAll_eq]
    rfl
  | set_control_interval_counts d =>
    refine ⟨by simp [BadArgument, mustBeNonneg], fun _ => ?_⟩
    simp only [Rust.exec, pushAll_eq, List.map_id]
    rfl
  | sgmt_initial_guess_points i ps =>
    refine ⟨by simp [BadArgument, mustBeNonneg], fun _ => ?_⟩
    simp only [Rust.exec, pushAll_eq]
    rfl
  | set_bumpers => exact ⟨by simp [BadArgument, mustBeNonneg], fun _ => rfl⟩
  | pose_wpt => exact ⟨by simp [BadArgument, mustBeNonneg], fun _ => rfl⟩
  | translation_wpt => exact ⟨by simp [BadArgument, mustBeNonneg], fun _ => rfl⟩
  | empty_wpt => exact ⟨by simp [BadArgument, mustBeNonneg], fun _ => rfl⟩
  | wpt_linear_velocity_direction => exact ⟨by simp [BadArgument, mustBeNonneg], fun _ => rfl⟩
  | sgmt_linear_velocity_direction => exact ⟨by simp [BadArgument, mustBeNonneg], fun _ => rfl⟩
  | sgmt_circle_obstacle => exact ⟨by simp [BadArgument, mustBeNonneg], fun _ => rfl⟩
  | add_progress_callback => exact ⟨by simp [BadArgument, mustBeNonneg], fun _ => rfl⟩
  | _ =>
    constructor
    · rintro ⟨rfl, m, hm, hle⟩
      cases hm
      simp [Rust.exec, Rust.withTemp, Constraint.mkLinearVelocityMaxMagnitude,
        Constraint.mkAngularVelocityMaxMagnitude, Constraint.mkLinearAccelerationMaxMagnitude,
        Constraint.mkPointAt, Constraint.assertNonneg, hle]
    · intro h
      have := hgood h _ rfl
      simp [Rust.exec, Rust.withTemp, Constraint.mkLinearVelocityMaxMagnitude,
        Constraint.mkAngularVelocityMaxMagnitude, Constraint.mkLinearAccelerationMaxMagnitude,
        Constraint.mkPointAt, Constraint.assertNonneg, this, counterpart, Op.exec, Rust.exec.wpt,
        Rust.exec.sgmt]

/-- C51: a Rust builder is a C++ builder with a massless drivetrain set. -/
theorem C51_new : (Rust.new : Builder D) =
    run true [.setDrivetrain ⟨Num.lit 0, Num.lit 0, []⟩] Builder.new := rfl

/-- The process outlives a history of calls with C++ counterparts `ops` if none of them faults. -/
def Completes (asserts : Bool) : List (Op D) → Builder D → Prop
  | [], _ => True
  | op :: ops, b => (op.exec asserts b).2 = none ∧ Completes asserts ops (op.exec asserts b).1

/-- C51: after a history the process is alive exactly if no argument is bad and no C++ counterpart
faults, and then the builder is what the C++ calls make of it. -/
theorem C51_history (asserts : Bool) (calls : List (RustCall D)) (b b' : Builder D) :
    Rust.run asserts calls b = .ok b' ↔
      (∀ c ∈ calls, ¬ BadArgument asserts c) ∧ Completes asserts (calls.filterMap counterpart) b ∧
      b' = run asserts (calls.filterMap counterpart) b := by
  induction calls generalizing b with
  | nil => simp [Rust.run, run, Completes, eq_comm]
  | cons c cs ih =>
    rw [Rust.run]
    by_cases hb : BadArgument asserts c
    · rw [(C51_call asserts c b).1 hb]
      simp [hb]
    · rw [(C51_call asserts c b).2 hb]
      cases hc : counterpart c with
      | none =>
        simp only [ih, List.filterMap_cons, hc, List.mem_cons, forall_eq_or_imp, hb, not_false_eq_true,
          true_and]
      | some op =>
        simp only [List.filterMap_cons, hc, List.mem_cons, forall_eq_or_imp, hb, not_false_eq_true,
          true_and, Completes]
        cases he : op.exec asserts b with
        | mk b1 e =>
          cases e with
          | some f => simp
          | none =>
            simp only [ih]
            simp only [true_and, run, List.foldl_cons, he]

/-- C51: the process dies exactly of the first call with a bad argument (abort) or whose counterpart
faults (abort, or undefined behaviour where C++ has it). -/
theorem C51_death (asserts : Bool) (calls : List (RustCall D)) (b : Builder D) (d : Rust.Death) :
    Rust.run asserts calls b = .error d ↔
      ∃ before c after b', calls = before ++ c :: after ∧ Rust.run asserts before b = .ok b' ∧
        (BadArgument asserts c ∧ d = .aborted ∨
         ¬ BadArgument asserts c ∧ ∃ op, counterpart c = some op ∧
          ((op.exec asserts b').2 = some .outOfRange ∧ d = .aborted ∨
           (op.exec asserts b').2 = some .assertFailed ∧ d = .aborted ∨
           (op.exec asserts b').2 = some .ub ∧ d = .undefined)) := by
  induction calls generalizing b with
  | nil => simp [Rust.run]
  | cons c cs ih =>
    have split : (∃ before c' after b', c :: cs = before ++ c' :: after ∧
        Rust.run asserts before b = .ok b' ∧
        (BadArgument asserts c' ∧ d = .aborted ∨
         ¬ BadArgument asserts c' ∧ ∃ op, counterpart c' = some op ∧
          ((op.exec asserts b').2 = some .outOfRange ∧ d = .aborted ∨
           (op.exec asserts b').2 = some .assertFailed ∧ d = .aborted ∨
           (op.exec asserts b').2 = some .ub ∧ d = .undefined))) ↔
        (BadArgument asserts c ∧ d = .aborted ∨
         ¬ BadArgument asserts c ∧ ∃ op, counterpart c = some op ∧
          ((op.exec asserts b).2 = some .outOfRange ∧ d = .aborted ∨
           (op.exec asserts b).2 = some .assertFailed ∧ d = .aborted ∨
           (op.exec asserts b).2 = some .ub ∧ d = .undefined)) ∨
        ∃ before c' after b', cs = before ++ c' :: after ∧
        Rust.run asserts (c :: before) b = .ok b' ∧
        (BadArgument asserts c' ∧ d = .aborted ∨
         ¬ BadArgument asserts c' ∧ ∃ op, counterpart c' = some op ∧
          ((op.exec asserts b').2 = some .outOfRange ∧ d = .aborted ∨
           (op.exec asserts b').2 = some .assertFailed ∧ d = .aborted ∨
           (op.exec asserts b').2 = some .ub ∧ d = .undefined)) := by
      constructor
      · rintro ⟨before, c', after, b', h1, h2, h3⟩
        cases before with
        | nil =>
          simp only [List.nil_append, List.cons.injEq] at h1
          obtain ⟨rfl, rfl⟩ := h1
          cases h2
          exact .inl h3
        | cons c'' before =>
          simp only [List.cons_append, List.cons.injEq] at h1
          obtain ⟨rfl, rfl⟩ := h1
          exact .inr ⟨before, c', after, b', rfl, h2, h3⟩
      · rintro (h | ⟨before, c', after, b', rfl, h2, h3⟩)
        · exact ⟨[], c, cs, b, rfl, rfl, h⟩
        · exact ⟨c :: before, c', after, b', rfl, h2, h3⟩
    rw [split]
    by_cases hb : BadArgument asserts c
    · have hr : ∀ cs, Rust.run asserts (c :: cs) b = .error .aborted := by
        intro cs
        rw [Rust.run, (C51_call asserts c b).1 hb]
        rfl
      simp only [hr, hb, Except.error.injEq, not_true_eq_false, false_and, true_and, or_false,
        reduceCtorEq, and_false, exists_false, eq_comm]
    · cases hc : counterpart c with
      | none =>
        have hr : ∀ cs, Rust.run asserts (c :: cs) b = Rust.run asserts cs b := by
          intro cs
          rw [Rust.run, (C51_call asserts c b).2 hb, hc]
        simp only [hr, hb, ih, false_and, reduceCtorEq, exists_false, and_false, or_self, false_or]
      | some op =>
        have he := (C51_call asserts c b).2 hb
        simp only [hc] at he
        cases ho : op.exec asserts b with
        | mk b1 e =>
          rw [ho] at he
          cases e with
          | none =>
            have hr : ∀ cs, Rust.run asserts (c :: cs) b = Rust.run asserts cs b1 := by
              intro cs
              rw [Rust.run, he]
            simp [hr, hb, ih, ho]
          | some f =>
            have hr : ∀ cs, Rust.run asserts (c :: cs) b = .error (.ofFault f) := by
              intro cs
              rw [Rust.run, he]
            cases f <;> simp [hr, hb, ho, Rust.Death.ofFault, eq_comm]

theorem rust_reachable {asserts : Bool} {calls : List (RustCall D)} {b : Builder D}
    (h : Rust.run asserts calls Rust.new = .ok b) :
    b = run asserts (.setDrivetrain ⟨Num.lit 0, Num.lit 0, []⟩ :: calls.filterMap counterpart)
      Builder.new :=
  ((C51_history asserts calls Rust.new b).mp h).2.2

theorem rust_drivetrain {asserts : Bool} {calls : List (RustCall D)} {b : Builder D}
    (h : Rust.run asserts calls Rust.new = .ok b) : ∃ dr, (table b).drivetrain = some dr := by
  have key : ∀ (ops : List (Op D)) (x : List (Obstacle D) × Option (SwerveDrivetrain D) × List ℕ),
      (∃ dr, x.2.1 = some dr) → ∃ dr, (ops.foldl afterOp x).2.1 = some dr := by
    intro ops
    induction ops with
    | nil => exact fun x h => h
    | cons op ops ih =>
      rintro x ⟨dr, h⟩
      rw [List.foldl_cons]
      apply ih
      cases op <;> first | exact ⟨dr, h⟩ | exact ⟨_, rfl⟩
  have h1 := rust_reachable h
  have h2 := congrArg (fun x => x.2.1) (run_extras asserts
    (.setDrivetrain ⟨Num.lit 0, Num.lit 0, []⟩ :: calls.filterMap counterpart) (Builder.new : Builder D))
  obtain ⟨dr, h3⟩ := key (calls.filterMap counterpart)
    (afterOp (extras Builder.new) (.setDrivetrain ⟨Num.lit 0, Num.lit 0, []⟩)) ⟨_, rfl⟩
  refine ⟨dr, ?_⟩
  rw [← h1] at h2
  exact h2.trans h3

/-! ### C54 -/

/-- The Rust sample has the fields of the C++ sample. -/
structure SameSample (s : TrajSample D) (r : RustSample D) : Prop where
  timestamp : r.timestamp = s.timestamp
  x : r.x = s.x
  y : r.y = s.y
  heading : r.heading = s.heading
  velocity_x : r.velocity_x = s.velocityX
  velocity_y : r.velocity_y = s.velocityY
  angular_velocity : r.angular_velocity = s.angularVelocity
  module_forces_x : r.module_forces_x = s.moduleForcesX
  module_forces_y : r.module_forces_y = s.moduleForcesY

theorem trajectory_iff (sol : SwerveSolution D) (samples : List (RustSample D)) :
    Rust.trajectory sol = .ok samples ↔
      ∃ cpp, holonomicTrajectory sol = .ok cpp ∧ List.Forall₂ SameSample cpp samples := by
  have same : ∀ cpp : List (TrajSample D), ∀ samples : List (RustSample D),
      samples = cpp.map Rust.sample ↔ List.Forall₂ SameSample cpp samples := by
    intro cpp
    induction cpp with
    | nil => intro samples; simp
    | cons s cpp ih =>
      intro samples
      cases samples with
      | nil => simp
      | cons r samples =>
        rw [List.map_cons, List.cons.injEq, List.forall₂_cons, ih]
        refine and_congr_left fun _ => ?_
        constructor
        · rintro rfl
          constructor <;> simp [Rust.sample, pushAll_eq]
        · intro h
          obtain ⟨h1, h2, h3, h4, h5, h6, h7, h8, h9⟩ := h
          cases r
          simp only at h1 h2 h3 h4 h5 h6 h7 h8 h9
          subst h1 h2 h3 h4 h5 h6 h7 h8 h9
          simp [Rust.sample, pushAll_eq]
  unfold Rust.trajectory
  cases h : holonomicTrajectory sol with
  | error f => simp
  | ok cpp =>
    simp only [Except.ok.injEq, exists_eq_left', pushAll_eq]
    rw [eq_comm, same]

/-- C54: what `generate` returns is the trajectory built by C++ from its solution, sample by
sample. -/
theorem C54_generate (what : String) (msg : Exit → String) (b : Builder D) (handle : ℤ) (exit : Exit)
    (values : ℕ → D) (samples : List (RustSample D))
    (h : Rust.generate what msg b handle exit values = .ok (.ok samples)) :
    ∃ g sol cpp, Generator.construct b handle = .ok g ∧
      (g.withValues values).conclude msg exit = .ok (.ok sol) ∧
      holonomicTrajectory sol = .ok cpp ∧ List.Forall₂ SameSample cpp samples := by
  have hcaught : ∀ f : Fault, (Rust.caught what f : Except Rust.Death (Except String
      (List (RustSample D)))) ≠ .ok (.ok samples) := by
    intro f; cases f <;> simp [Rust.caught]
  unfold Rust.generate at h
  split at h
  · exact absurd h (hcaught _)
  rename_i g hg
  split at h
  · exact absurd h (hcaught _)
  · cases h
  rename_i sol hsol
  split at h
  · exact absurd h (hcaught _)
  rename_i r hr
  cases h
  obtain ⟨cpp, h1, h2⟩ := (trajectory_iff sol samples).mp hr
  exact ⟨g, sol, cpp, hg, hsol, h1, h2⟩

/-- C54: the same for progress callbacks, which also get the handle. -/
theorem C54_progress (sol : SwerveSolution D) (handle h : ℤ) (samples : List (RustSample D)) :
    Rust.progress sol handle = .ok (samples, h) ↔
      h = handle ∧ ∃ cpp, holonomicTrajectory sol = .ok cpp ∧
        List.Forall₂ SameSample cpp samples := by
  rw [← trajectory_iff]
  unfold Rust.progress
  cases Rust.trajectory sol with
  | error f => simp
  | ok r =>
    simp only [Except.ok.injEq, Prod.mk.injEq]
    exact ⟨fun ⟨h1, h2⟩ => ⟨h2.symm, h1⟩, fun ⟨h1, h2⟩ => ⟨h2, h1.symm⟩⟩

/-- Solutions read off a generator make trajectories. -/
theorem generated_longEnough {b : Builder D} (hb : Reachable b) {dr : SwerveDrivetrain D}
    (hr : Ready b dr) {handle : ℤ} {g : Generator D} (hg : Generator.construct b handle = .ok g)
    (v : ℕ → D) {sol : SwerveSolution D}
    (hsol : (g.withValues v).constructSwerveSolution = .ok sol) : LongEnough sol := by
  obtain ⟨sol', h, hdt, -, -, -, -, -, -, -, -, -, -, -, -, hlen, hmod, -⟩ :=
    C44_solution b hb dr hr handle g hg v
  have e : Except.ok sol = Except.ok sol' := hsol.symm.trans h
  obtain rfl := Except.ok.inj e
  have h0 : sol.x.length = sampleCount (table b).counts := hlen _ (by simp)
  constructor
  · rw [h0, hdt, sampleCount]; omega
  · rw [h0, hlen sol.y (by simp)]
  · rw [h0, hlen sol.thetacos (by simp)]
  · rw [h0, hlen sol.thetasin (by simp)]
  · rw [h0, hlen sol.vx (by simp)]
  · rw [h0, hlen sol.vy (by simp)]
  · rw [h0, hlen sol.omega (by simp)]
  · rw [h0, (hmod sol.moduleFX (by simp)).1]
  · rw [h0, (hmod sol.moduleFY (by simp)).1]

/-- C54: progress callbacks on solutions of a running generation are never undefined. -/
theorem C54_progress_defined (b : Builder D) (hb : Reachable b) (dr : SwerveDrivetrain D)
    (hr : Ready b dr) (handle : ℤ) (g : Generator D) (hg : Generator.construct b handle = .ok g)
    (v : ℕ → D) : ∃ sol samples, (g.withValues v).constructSwerveSolution = .ok sol ∧
      Rust.progress sol handle = .ok (samples, handle) ∧
      samples.length = sampleCount (table b).counts := by
  obtain ⟨sol, hsol, -, -, -, -, -, -, -, -, -, -, -, -, -, hlen, -⟩ :=
    C44_solution b hb dr hr handle g hg v
  obtain ⟨cpp, hcpp⟩ := (C46_defined sol).1.mpr (generated_longEnough hb hr hg v hsol)
  have : ∃ samples, Rust.trajectory sol = .ok samples := by
    unfold Rust.trajectory; rw [hcpp]; exact ⟨_, rfl⟩
  obtain ⟨samples, hs⟩ := this
  obtain ⟨cpp', h1, h2⟩ := (trajectory_iff sol samples).mp hs
  rw [hcpp] at h1
  obtain rfl := Except.ok.inj h1
  refine ⟨sol, samples, hsol, (C54_progress sol handle handle samples).mpr ⟨rfl, cpp, hcpp, h2⟩, ?_⟩
  rw [← h2.length_eq, (C45_fields sol cpp hcpp).1, hlen sol.x (by simp)]

/-! ### C51, C63 `generate` -/

/-- C51: every outcome of `generate` on a builder made by Rust calls (with fewer than 2^64 samples).
It never aborts; C++ exceptions and failed generations are `Err`, successful ones `Ok` with one
sample per time step. -/
theorem C51_generate (what : String) (msg : Exit → String) (asserts : Bool)
    (calls : List (RustCall D)) (b : Builder D) (hb : Rust.run asserts calls Rust.new = .ok b)
    (handle : ℤ) (exit : Exit) (values : ℕ → D) (hN : sampleCount (table b).counts < 2 ^ 64)
    (r : Except Rust.Death (Except String (List (RustSample D))))
    (hr : r = Rust.generate what msg b handle exit values) :
    ((table b).waypoints = 0 → r = .error .undefined) ∧
    (0 < (table b).waypoints → (table b).waypoints ≤ (table b).counts.length →
      r = .ok (.error what)) ∧
    ((table b).counts.length < (table b).waypoints →
      exit.toInt < 0 ∨ exit = .callbackRequestedStop → r = .ok (.error (msg exit))) ∧
    ((table b).counts.length < (table b).waypoints →
      ¬ (exit.toInt < 0 ∨ exit = .callbackRequestedStop) →
      ∃ samples, r = .ok (.ok samples) ∧ samples.length = sampleCount (table b).counts) := by
  subst hr
  have hreach : Reachable b := ⟨_, _, rust_reachable hb⟩
  obtain ⟨dr, hdr⟩ := rust_drivetrain hb
  obtain ⟨h1, h2, -, h4⟩ := C30_outcomes b hreach handle hN
  refine ⟨fun h => ?_, fun h h' => ?_, fun h he => ?_, fun h he => ?_⟩
  · simp only [Rust.generate, h1 h, Rust.caught]
  · simp only [Rust.generate, h2 h h', Rust.caught]
  · obtain ⟨g, hg⟩ := h4 h (by simp [hdr])
    simp only [Rust.generate, hg, Generator.conclude, if_pos he]
  · obtain ⟨g, hg⟩ := h4 h (by simp [hdr])
    obtain ⟨sol, samples, h1, h2, h3⟩ :=
      C54_progress_defined b hreach dr ⟨hdr, h, hN⟩ handle g hg values
    have hs : Rust.trajectory sol = .ok samples := by
      unfold Rust.progress at h2
      split at h2
      · cases h2; assumption
      · cases h2
    exact ⟨samples, by simp only [Rust.generate, hg, Generator.conclude, if_neg he, h1, hs], h3⟩

/-- C63 as stated is false: `SwervePathBuilder::new().generate(…)` is undefined behaviour. -/
theorem C63_refuted (what : String) (msg : Exit → String) (handle : ℤ) (exit : Exit)
    (values : ℕ → D) : Rust.generate what msg Rust.new handle exit values = .error .undefined :=
  (C51_generate what msg true [] Rust.new rfl handle exit values (by
    simp [table, Rust.new, Builder.new, sampleCount]) _ rfl).1 rfl

/-! ### C63 No undefined behaviour before `generate` -/

/-- The outcome is not undefined behaviour. -/
def Defined (o : Out D) : Prop := o.2 ≠ some .ub

omit [Dbl D] in
theorem defined_andThen {o : Out D} {f : Builder D → Out D} (h : Defined o) (h' : Defined (f o.1)) :
    Defined (andThen o f) := by
  obtain ⟨b, e⟩ := o
  cases e with
  | none => exact h'
  | some e => exact h

omit [Dbl D] in
theorem defined_modifyWpt (i : ℕ) (f : Waypoint D → Waypoint D) (b : Builder D) :
    Defined (b.modifyWpt i f) := by
  unfold modifyWpt Defined
  split <;> simp

theorem defined_wptConstraint (i : ℕ) (c : Constraint D) (b : Builder D) :
    Defined (b.wptConstraint i c) := defined_modifyWpt _ _ _

theorem defined_sgmtConstraint (asserts : Bool) (i j : ℕ) (c : Constraint D) (b : Builder D) :
    Defined (b.sgmtConstraint asserts i j c) := by
  have hloop : ∀ (n i : ℕ) (b : Builder D), Defined (sgmtLoop c n i b) := by
    intro n
    induction n with
    | zero => intro i b; simp [sgmtLoop, Defined]
    | succ n ih =>
      intro i b
      rw [sgmtLoop]
      exact defined_andThen (defined_modifyWpt _ _ _)
        (defined_andThen (defined_modifyWpt _ _ _) (ih _ _))
  unfold sgmtConstraint
  split
  · simp [Defined]
  · exact defined_andThen (defined_modifyWpt _ _ _) (hloop _ _ _)

theorem defined_guess {b : Builder D} (hb : WF b) (i : ℕ) (p : Pose2 D) :
    Defined (b.wptInitialGuessPoint i p) := by
  have hwf : WF (b.newWpts i) := (step_newWpts (q := True) hb i).wf
  unfold wptInitialGuessPoint Defined
  dsimp only
  split
  · simp
  · rename_i h
    exact absurd rfl (hwf.ne [] (List.mem_of_getElem? h))
  · simp

theorem defined_sgmtGuess (b : Builder D) (i : ℕ) (ps : List (Pose2 D)) :
    Defined (b.sgmtInitialGuessPoints i ps) := by
  unfold sgmtInitialGuessPoints Defined
  dsimp only
  split <;> simp

omit [Dbl D] in
theorem defined_recordAll {record : Constraint D → Builder D → Out D}
    (hr : ∀ c b, Defined (record c b)) (l : List (Res (Constraint D)))
    (hl : ∀ r ∈ l, r ≠ .error .ub) (b : Builder D) : Defined (recordAll record l b) := by
  induction l generalizing b with
  | nil => simp [recordAll, Defined]
  | cons x l ih =>
    cases x with
    | error e =>
      have := hl (.error e) (by simp)
      simpa [recordAll, Defined] using this
    | ok c => exact defined_andThen (hr c b) (ih (fun r h => hl r (by simp [h])) _)

omit [Dbl D] in
theorem bind_not_ub {α β : Type} {r : Res α} {f : α → Res β} (h : r ≠ .error .ub)
    (h' : ∀ a, f a ≠ .error .ub) : (r >>= f) ≠ .error .ub := by
  cases r with
  | error e => simpa [bind, Except.bind] using h
  | ok a => exact h' a

omit [Dbl D] in
theorem vat_not_ub {α : Type} (l : List α) (i : ℕ) : vat l i ≠ .error .ub := by
  unfold vat
  split <;> simp

theorem assertNonneg_not_ub (asserts : Bool) (d : D) (c : Constraint D) :
    Constraint.assertNonneg asserts d c ≠ .error .ub := by
  unfold Constraint.assertNonneg
  split <;> simp

theorem obstacleConstraints_not_ub (asserts : Bool) (obs : Obstacle D) (bums : List (Obstacle D)) :
    ∀ r ∈ obstacleConstraints asserts obs bums, r ≠ .error .ub := by
  have h2 : ∀ (l l' : List (Translation2 D)) (i j : ℕ) (f : Translation2 D → Translation2 D →
      Res (Constraint D)), (∀ s e, f s e ≠ .error .ub) → (do
        let s ← vat l i
        let e ← vat l' j
        f s e) ≠ .error .ub :=
    fun l l' i j f hf => bind_not_ub (vat_not_ub _ _) fun s => bind_not_ub (vat_not_ub _ _) (hf s)
  have hb : ∀ bum d p, ∀ r ∈ bumperEdges asserts bum d p, r ≠ (.error .ub : Res (Constraint D)) := by
    intro bum d p r hr
    unfold bumperEdges at hr
    split at hr
    · simp only [List.mem_singleton] at hr; subst hr; simp
    · rcases List.mem_append.mp hr with hr | hr
      · obtain ⟨i, -, rfl⟩ := List.mem_map.mp hr
        exact h2 _ _ _ _ _ fun _ _ => assertNonneg_not_ub _ _ _
      · split at hr
        · simp only [List.mem_singleton] at hr
          subst hr
          exact h2 _ _ _ _ _ fun _ _ => assertNonneg_not_ub _ _ _
        · simp at hr
  have ho : ∀ n o d q, ∀ r ∈ obstacleEdges asserts n o d q, r ≠ (.error .ub : Res (Constraint D)) := by
    intro n o d q r hr
    unfold obstacleEdges at hr
    split at hr
    · rcases List.mem_append.mp hr with hr | hr
      · obtain ⟨i, -, rfl⟩ := List.mem_map.mp hr
        exact h2 _ _ _ _ _ fun _ _ => assertNonneg_not_ub _ _ _
      · split at hr
        · simp only [List.mem_singleton] at hr
          subst hr
          exact h2 _ _ _ _ _ fun _ _ => assertNonneg_not_ub _ _ _
        · simp at hr
    · simp only [List.mem_singleton] at hr
      subst hr
      exact bind_not_ub (vat_not_ub _ _) fun _ => assertNonneg_not_ub _ _ _
  induction bums with
  | nil => simp [obstacleConstraints]
  | cons bum rest ih =>
    intro r hr
    rw [obstacleConstraints] at hr
    split at hr
    · simp only [List.mem_singleton] at hr
      subst hr
      exact h2 _ _ _ _ _ fun _ _ => assertNonneg_not_ub _ _ _
    · rcases List.mem_append.mp hr with hr | hr
      · rcases List.mem_append.mp hr with hr | hr
        · obtain ⟨l, hl, hr⟩ := List.mem_flatten.mp hr
          obtain ⟨p, -, rfl⟩ := List.mem_map.mp hl
          exact hb _ _ _ _ hr
        · obtain ⟨l, hl, hr⟩ := List.mem_flatten.mp hr
          obtain ⟨p, -, rfl⟩ := List.mem_map.mp hl
          exact ho _ _ _ _ _ hr
      · exact ih r hr

theorem defined_exec {b : Builder D} (hb : WF b) (asserts : Bool) (op : Op D) :
    Defined (op.exec asserts b) := by
  cases op with
  | setDrivetrain => simp [Op.exec, Defined]
  | addBumpers => simp [Op.exec, Defined]
  | controlIntervalCounts => simp [Op.exec, Defined]
  | addIntermediateCallback => simp [Op.exec, Defined]
  | wptConstraint i c => exact defined_wptConstraint i c b
  | sgmtConstraint i j c => exact defined_sgmtConstraint asserts i j c b
  | wptObstacle i o =>
    exact defined_recordAll (defined_wptConstraint i) _ (obstacleConstraints_not_ub _ _ _) b
  | sgmtObstacle i j o =>
    exact defined_recordAll (defined_sgmtConstraint asserts i j) _ (obstacleConstraints_not_ub _ _ _) b
  | wptInitialGuessPoint i p => exact defined_guess hb i p
  | poseWpt i x y h =>
    exact defined_andThen (defined_wptConstraint _ _ _)
      (defined_guess (step_wptConstraint (q := True) hb i _).wf _ _)
  | translationWpt i x y h =>
    exact defined_andThen (defined_wptConstraint _ _ _)
      (defined_guess (step_wptConstraint (q := True) hb i _).wf _ _)
  | sgmtInitialGuessPoints i ps => exact defined_sgmtGuess b i ps

/-- C63, what holds: no history of builder calls from safe Rust is undefined behaviour, whatever the
arguments. -/
theorem C63_calls_partial (asserts : Bool) (calls : List (RustCall D)) :
    Rust.run asserts calls Rust.new ≠ .error .undefined := by
  intro h
  obtain ⟨before, c, after, b', -, hb', hc⟩ := (C51_death _ _ _ _).mp h
  have hwf : WF b' := wf_reachable ⟨_, _, rust_reachable hb'⟩
  rcases hc with ⟨-, h⟩ | ⟨-, op, -, ⟨-, h⟩ | ⟨-, h⟩ | ⟨h, -⟩⟩
  · cases h
  · cases h
  · cases h
  · exact defined_exec hwf asserts op h

/-- C63, what holds: `generate` on a builder made by safe Rust (with fewer than 2^64 samples) is undefined
exactly if no waypoint was ever mentioned. -/
theorem C63_generate_partial (what : String) (msg : Exit → String) (asserts : Bool)
    (calls : List (RustCall D)) (b : Builder D) (hb : Rust.run asserts calls Rust.new = .ok b)
    (handle : ℤ) (exit : Exit) (values : ℕ → D) (hN : sampleCount (table b).counts < 2 ^ 64) :
    Rust.generate what msg b handle exit values = .error .undefined ↔ (table b).waypoints = 0 := by
  obtain ⟨h1, h2, h3, h4⟩ := C51_generate what msg asserts calls b hb handle exit values hN _ rfl
  refine ⟨fun h => ?_, h1⟩
  by_contra hne
  by_cases hle : (table b).waypoints ≤ (table b).counts.length
  · rw [h2 (by omega) hle] at h; cases h
  · by_cases he : exit.toInt < 0 ∨ exit = .callbackRequestedStop
    · rw [h3 (by omega) he] at h; cases h
    · obtain ⟨s, hs, -⟩ := h4 (by omega) he
      rw [hs] at h; cases h

/-! ### C52 -/

/-- C52: coordinate lists of different lengths have no effect. -/
theorem C52_unequal (asserts : Bool) (i j : ℕ) (x y : List D) (r : D) (b : Builder D)
    (h : x.length ≠ y.length) :
    Rust.exec asserts (.sgmt_polygon_obstacle i j x y r) b = (b, none) := by
  simp [Rust.exec, h]

/-- C52: coordinate lists of equal length are paired in order. -/
theorem C52_equal (asserts : Bool) (i j : ℕ) (x y : List D) (r : D) (b : Builder D)
    (h : x.length = y.length) :
    ∃ points : List (Translation2 D), points.length = x.length ∧
      (∀ (k : ℕ) (hp : k < points.length) (hx : k < x.length) (hy : k < y.length),
        points[k] = ⟨x[k], y[k]⟩) ∧
      Rust.exec asserts (.sgmt_polygon_obstacle i j x y r) b =
        b.sgmtObstacle asserts i j ⟨r, points⟩ := by
  refine ⟨List.zipWith (⟨·, ·⟩) x y, by simp [h], by simp, ?_⟩
  rw [(C51_call asserts _ b).2 (by simp [BadArgument, mustBeNonneg])]
  simp [counterpart, h, Op.exec]

/-- C52, non-vacuity: three corners. -/
example (asserts : Bool) (b : Builder D) (a c d e f g r : D) :
    Rust.exec asserts (.sgmt_polygon_obstacle 0 1 [a, c, d] [e, f, g] r) b =
      b.sgmtObstacle asserts 0 1 ⟨r, [⟨a, e⟩, ⟨c, f⟩, ⟨d, g⟩]⟩ ∧
    Rust.exec asserts (.sgmt_polygon_obstacle 0 1 [a, c, d] [e, f] r) b = (b, none) :=
  ⟨rfl, rfl⟩

/-! ### C53 -/

/-- The length and width given to `set_bumpers`. -/
def bumperSize : RustCall D → Option (D × D)
  | .set_bumpers l w => some (l, w)
  | _ => none

/-- C53, what holds: the bumpers are one rectangle per call of `set_bumpers`, in order. -/
theorem C53_partial (asserts : Bool) (calls : List (RustCall D)) (b : Builder D)
    (h : Rust.run asserts calls Rust.new = .ok b) :
    (table b).bumpers = (calls.filterMap bumperSize).map fun s =>
      ⟨Num.lit (1 / 100), rectangle s.1 s.2⟩ := by
  have h1 : (table b).bumpers = bumpersOf (calls.filterMap counterpart) := by
    rw [rust_reachable h]
    exact C27_bumpers _ _
  rw [h1]
  clear h h1
  induction calls with
  | nil => rfl
  | cons c cs ih =>
    rw [List.filterMap_cons, List.filterMap_cons]
    cases c with
    | set_bumpers l w => simp [counterpart, bumperSize, bumpersOf, ih]
    | sgmt_polygon_obstacle i j x y r =>
      by_cases hl : x.length = y.length
      · simp [counterpart, bumperSize, hl, bumpersOf, ih]
      · simp [counterpart, bumperSize, hl, ih]
    | _ => simpa only [counterpart, bumperSize, bumpersOf] using ih

/-- C53, what holds: if `set_bumpers` is called once, its rectangle is the only bumper polygon. -/
theorem C53_once_partial (asserts : Bool) (before after : List (RustCall D)) (l w : D) (b : Builder D)
    (h : Rust.run asserts (before ++ .set_bumpers l w :: after) Rust.new = .ok b)
    (hbefore : ∀ l' w', .set_bumpers l' w' ∉ before) (hafter : ∀ l' w', .set_bumpers l' w' ∉ after) :
    (table b).bumpers = [⟨Num.lit (1 / 100), rectangle l w⟩] := by
  have hnone : ∀ cs : List (RustCall D), (∀ l' w', .set_bumpers l' w' ∉ cs) →
      cs.filterMap bumperSize = [] := by
    intro cs hcs
    rw [List.filterMap_eq_nil_iff]
    intro c hc
    cases c with
    | set_bumpers l w => exact absurd hc (hcs l w)
    | _ => rfl
  rw [C53_partial asserts _ b h, List.filterMap_append, List.filterMap_cons, hnone _ hbefore,
    hnone _ hafter]
  rfl

/-- C53 is false: a second call adds a second rectangle. -/
theorem C53_refuted (asserts : Bool) (l w l' w' : D) :
    ∃ b, Rust.run asserts [.set_bumpers l w, .set_bumpers l' w'] Rust.new = .ok b ∧
      (table b).bumpers = [⟨Num.lit (1 / 100), rectangle l w⟩, ⟨Num.lit (1 / 100), rectangle l' w'⟩] :=
  ⟨_, rfl, rfl⟩

/-! ### C62 -/

theorem run_append (asserts : Bool) (cs : List (RustCall D)) (c : RustCall D) (b b' : Builder D)
    (h : Rust.run asserts cs b = .ok b') :
    Rust.run asserts (cs ++ [c]) b = Rust.run asserts [c] b' := by
  induction cs generalizing b with
  | nil => cases h; rfl
  | cons c' cs ih =>
    rw [Rust.run] at h
    rw [List.cons_append, Rust.run]
    split at h
    · exact ih _ h
    · cases h

theorem rust_bumpers {asserts : Bool} {calls : List (RustCall D)} {b : Builder D}
    (h : Rust.run asserts calls Rust.new = .ok b) :
    ∀ bum ∈ b.bumpers, bum.points.length = 4 ∧ bum.safetyDistance = Num.lit (1 / 100) := by
  intro bum hbum
  have := C53_partial asserts calls b h
  change b.bumpers = _ at this
  rw [this] at hbum
  obtain ⟨s, -, rfl⟩ := List.mem_map.mp hbum
  exact ⟨rfl, rfl⟩

/-- C62, what holds: after `set_bumpers`, a polygon obstacle along existing or new segments is accepted
exactly if it has one, two or at least four corners. -/
theorem C62_partial (asserts : Bool) (calls : List (RustCall D)) (b : Builder D)
    (h : Rust.run asserts calls Rust.new = .ok b) (l w : D) (hset : .set_bumpers l w ∈ calls)
    (i j : ℕ) (hij : i < j) (hj : j < 2 ^ 63) (x y : List D) (hxy : x.length = y.length)
    (hlen : x.length < 2 ^ 64) (r : D)
    (hdist : asserts = true → Dbl.le (Num.lit 0) ((Num.lit (1 / 100) : D) + r) = true) :
    (x.length = 0 ∨ x.length = 3 →
      Rust.run asserts (calls ++ [.sgmt_polygon_obstacle i j x y r]) Rust.new = .error .aborted) ∧
    (¬ (x.length = 0 ∨ x.length = 3) →
      ∃ b', Rust.run asserts (calls ++ [.sgmt_polygon_obstacle i j x y r]) Rust.new = .ok b') := by
  have hreach : Reachable b := ⟨_, _, rust_reachable h⟩
  have hbum := rust_bumpers h
  obtain ⟨points, hpl, -, hex⟩ := C52_equal asserts i j x y r b hxy
  rw [run_append asserts calls _ _ _ h]
  have hne : ∃ bum rest, b.bumpers = bum :: rest := by
    apply List.exists_cons_of_ne_nil
    have := C53_partial asserts calls b h
    change b.bumpers = _ at this
    rw [this, ne_eq, List.map_eq_nil_iff, List.filterMap_eq_nil_iff]
    intro hall
    exact absurd (hall _ hset) (by simp [bumperSize])
  obtain ⟨bum, rest, hbr⟩ := hne
  obtain ⟨h4, hsd⟩ := hbum bum (by simp [hbr])
  have hstep : Rust.run asserts [.sgmt_polygon_obstacle i j x y r] b =
      match b.sgmtObstacle asserts i j ⟨r, points⟩ with
      | (b', none) => .ok b'
      | (_, some e) => .error (.ofFault e) := by
    rw [Rust.run, hex]
    rfl
  rw [hstep]
  constructor
  · rintro (h0 | h3)
    · have hp : points = [] := List.eq_nil_of_length_eq_zero (by omega)
      have hbne : bum.points ≠ [] := by intro hh; simp [hh] at h4
      rw [(C26_no_corners asserts b ⟨r, points⟩ bum rest hbr (.inl ⟨hp, hbne⟩) i j).2]
      rfl
    · have := (C26_closing_throws asserts b hreach ⟨r, points⟩ bum rest hbr (by simp; omega)
        (by simp; omega) (by omega) (by rw [hsd]; exact hdist)).2 i j hij hj
      rcases ho : b.sgmtObstacle asserts i j ⟨r, points⟩ with ⟨b', e⟩
      rw [ho] at this
      cases this
      rfl
  · intro hn
    have := (C26_returns asserts b hreach ⟨r, points⟩ (by
        intro hp; simp only at hp; simp [hp] at hpl; omega)
      (fun bum hb hp => by have := (hbum bum hb).1; simp [hp] at this)
      (fun h3 bum hb => by have := (hbum bum hb).1; simp only at h3 ⊢; omega)
      (by simp only; omega)
      (fun ha bum hb => by rw [(hbum bum hb).2]; exact hdist ha)).2 i j hij hj
    rcases ho : b.sgmtObstacle asserts i j ⟨r, points⟩ with ⟨b', e⟩
    rw [ho] at this
    cases this
    exact ⟨b', rfl⟩

/-! ### C51 Acceptable histories -/

theorem acceptable_step (asserts : Bool) (calls : List (RustCall D)) (b : Builder D)
    (h : Rust.run asserts calls Rust.new = .ok b) (c : RustCall D) (hc : Acceptable asserts c) :
    ∃ b', Rust.exec asserts c b = (b', none) := by
  have hreach : Reachable b := ⟨_, _, rust_reachable h⟩
  have hbum := rust_bumpers h
  have hobs : ∀ (i j : ℕ) (points : List (Translation2 D)) (r : D), i < j → j < 2 ^ 63 →
      points ≠ [] → points.length ≠ 3 → points.length < 2 ^ 64 →
      (asserts = true → Dbl.le (Num.lit 0) ((Num.lit (1 / 100) : D) + r) = true) →
      ∃ b', b.sgmtObstacle asserts i j ⟨r, points⟩ = (b', none) := by
    intro i j points r hij hj hne h3 hlen hr
    have := (C26_returns asserts b hreach ⟨r, points⟩ hne
      (fun bum hb hp => by have := (hbum bum hb).1; simp [hp] at this)
      (fun h3 bum hb => by have := (hbum bum hb).1; simp only at h3 ⊢; omega)
      hlen (fun ha bum hb => by rw [(hbum bum hb).2]; exact hr ha)).2 i j hij hj
    exact ⟨_, Prod.ext rfl this⟩
  rw [(C51_call asserts c b).2 hc.1]
  have h2 := hc.2
  have wpt : ∀ i c, i < 2 ^ 63 → ∃ b', b.wptConstraint i c = (b', none) := fun i c hi =>
    let ⟨b', e, _⟩ := C11_wpt_constraint b hreach i hi c
    ⟨b', e⟩
  have sgmt : ∀ i j c, i < j ∧ j < 2 ^ 63 → ∃ b', b.sgmtConstraint asserts i j c = (b', none) :=
    fun i j c hij =>
    let ⟨b', e, _⟩ := C11_sgmt_constraint asserts b hreach i j hij.1 hij.2 c
    ⟨b', e⟩
  cases c with
  | pose_wpt i x y t =>
    obtain ⟨b', e, -⟩ := C12_pose_wpt b hreach i h2 x y t
    exact ⟨b', e⟩
  | translation_wpt i x y t =>
    obtain ⟨b', e, -⟩ := C12_translation_wpt b hreach i h2 x y t
    exact ⟨b', e⟩
  | empty_wpt i x y t =>
    obtain ⟨b', e, -⟩ := C12_wpt_guess b hreach i h2 (.ofXYHeading x y t)
    exact ⟨b', e⟩
  | sgmt_initial_guess_points i ps =>
    obtain ⟨b', e, -⟩ := C13_sgmt_guess b hreach i h2 (ps.map fun p => .ofXYHeading p.x p.y p.heading)
    exact ⟨b', e⟩
  | sgmt_circle_obstacle i j x y r =>
    exact hobs i j [⟨x, y⟩] r h2.1 h2.2.1 (by simp) (by simp) (by simp) h2.2.2
  | sgmt_polygon_obstacle i j x y r =>
    by_cases hl : x.length = y.length
    · obtain ⟨h3, h4, h5, h6, h7, h8⟩ := h2 hl
      simp only [counterpart, hl, if_true]
      refine hobs i j _ r h3 h4 ?_ (by simpa [hl] using h7) (by simpa [hl] using h5) h8
      intro he
      have := congrArg List.length he
      simp [hl] at this
      exact h6 (List.eq_nil_of_length_eq_zero (by rw [hl, this]; rfl))
    · exact ⟨b, by simp [counterpart, hl]⟩
  | set_drivetrain => exact ⟨_, rfl⟩
  | set_bumpers => exact ⟨_, rfl⟩
  | set_control_interval_counts => exact ⟨_, rfl⟩
  | add_progress_callback => exact ⟨_, rfl⟩
  | wpt_linear_velocity_direction => exact wpt _ _ h2
  | wpt_linear_velocity_max_magnitude => exact wpt _ _ h2
  | wpt_angular_velocity_max_magnitude => exact wpt _ _ h2
  | wpt_linear_acceleration_max_magnitude => exact wpt _ _ h2
  | wpt_point_at => exact wpt _ _ h2
  | _ => exact sgmt _ _ _ h2

/-- C51: acceptable calls never end the process. -/
theorem C51_survives (asserts : Bool) (calls : List (RustCall D))
    (h : ∀ c ∈ calls, Acceptable asserts c) : ∃ b, Rust.run asserts calls Rust.new = .ok b := by
  induction calls using List.reverseRecOn with
  | nil => exact ⟨_, rfl⟩
  | append_singleton cs c ih =>
    obtain ⟨b, hb⟩ := ih fun c hc => h c (by simp [hc])
    obtain ⟨b', hb'⟩ := acceptable_step asserts cs b hb c (h c (by simp))
    exact ⟨b', by rw [run_append asserts cs c _ _ hb, Rust.run, hb']; rfl⟩

end AnyScalar

section Reals

/-- The demonstration history (see `demoOps`), from Rust. -/
noncomputable def demoCalls : List (RustCall ℝ) :=
  [.set_drivetrain ⟨4, 1, [⟨1, 1, 1, 2, 2⟩, ⟨1, -1, 1, 2, 2⟩, ⟨-1, 1, 1, 2, 2⟩, ⟨-1, -1, 1, 2, 2⟩]⟩,
    .pose_wpt 0 0 0 0, .pose_wpt 1 1 0 0, .set_control_interval_counts [1],
    .sgmt_linear_velocity_max_magnitude 0 1 2]

theorem demo_calls : Rust.run true demoCalls Rust.new = .ok demoBuilder := by
  obtain ⟨b, hb⟩ := C51_survives true demoCalls (by
    intro c hc
    simp only [demoCalls, List.mem_cons, List.not_mem_nil, or_false] at hc
    rcases hc with rfl | rfl | rfl | rfl | rfl <;> simp [Acceptable, BadArgument, mustBeNonneg])
  rw [hb]
  exact congrArg _ ((C51_history _ _ _ _).mp hb).2.2

/-- C51, C54, C63, non-vacuity: a history from Rust whose generation succeeds with two samples if the
solver does, and is an error if the solver fails. -/
example (values : ℕ → ℝ) : (∃ samples, Rust.generate "" (fun _ => "failed") demoBuilder 7 (.other 0) values =
      .ok (.ok samples) ∧ samples.length = 2) ∧
    Rust.generate "" (fun _ => "failed") demoBuilder 7 (.other (-1)) values =
      .ok (.error "failed") := by
  obtain ⟨h1, h2, -⟩ := demo_table
  have hN : sampleCount (table demoBuilder).counts < 2 ^ 64 := by rw [h2]; simp [sampleCount]
  obtain ⟨-, -, -, hs⟩ := C51_generate "" (fun _ => "failed") true demoCalls _ demo_calls 7 (.other 0)
    values hN _ rfl
  obtain ⟨-, -, he, -⟩ := C51_generate "" (fun _ => "failed") true demoCalls _ demo_calls 7
    (.other (-1)) values hN _ rfl
  have hlt : (table demoBuilder).counts.length < (table demoBuilder).waypoints := by
    rw [h1, h2]; simp
  obtain ⟨samples, e, hl⟩ := hs hlt (by simp [Exit.toInt])
  exact ⟨⟨samples, e, by rw [hl, h2]; rfl⟩, he hlt (by simp [Exit.toInt])⟩

/-- C53, non-vacuity. -/
example : ∃ b, Rust.run true ([.pose_wpt 0 0 0 0] ++ .set_bumpers 1 (2 : ℝ) :: []) Rust.new = .ok b ∧
    (table b).bumpers = [⟨1 / 100, [⟨1 / 2, 1⟩, ⟨-1 / 2, 1⟩, ⟨-1 / 2, -1⟩, ⟨1 / 2, -1⟩]⟩] := by
  obtain ⟨b, hb⟩ := C51_survives true ([.pose_wpt 0 0 0 0] ++ .set_bumpers 1 (2 : ℝ) :: []) (by
    intro c hc
    simp only [List.cons_append, List.nil_append, List.mem_cons, List.not_mem_nil, or_false] at hc
    rcases hc with rfl | rfl <;> simp [Acceptable, BadArgument, mustBeNonneg])
  refine ⟨b, hb, ?_⟩
  rw [C53_once_partial true [.pose_wpt 0 0 0 0] [] 1 2 b hb (by simp) (by simp)]
  simp [rectangle]

/-- C53: `rectangle l w` is the rectangle of that size centred at the origin: its corners are
(±l/2, ±w/2), counterclockwise. -/
theorem C53_rectangle (l w : ℝ) :
    rectangle l w = [⟨l / 2, w / 2⟩, ⟨-(l / 2), w / 2⟩, ⟨-(l / 2), -(w / 2)⟩, ⟨l / 2, -(w / 2)⟩] := by
  simp [rectangle, neg_div]

/-- C62 is false: with bumpers, the triangle (2,0), (3,0), (2,1) aborts the process. -/
theorem C62_refuted (asserts : Bool) :
    Rust.run asserts [.set_bumpers 1 1, .sgmt_polygon_obstacle 0 1 [2, 3, 2] [0, 0, 1] (1 / 10 : ℝ)]
      Rust.new = .error .aborted :=
  (C62_partial asserts [.set_bumpers 1 1] _ rfl 1 1 (by simp) 0 1 (by norm_num) (by norm_num)
    [2, 3, 2] [0, 0, 1] rfl (by norm_num) (1 / 10) (by intro _; simp; norm_num)).1 (by simp)

/-- C62, non-vacuity: a square is accepted. -/
example : ∃ b, Rust.run true [.set_bumpers 1 1,
    .sgmt_polygon_obstacle 0 1 [2, 3, 3, 2] [0, 0, 1, (1 : ℝ)] (1 / 10)] Rust.new = .ok b :=
  (C62_partial true [.set_bumpers 1 1] _ rfl 1 1 (by simp) 0 1 (by norm_num) (by norm_num)
    [2, 3, 3, 2] [0, 0, 1, 1] rfl (by norm_num) (1 / 10) (by intro _; simp; norm_num)).2 (by simp)

end Reals

end Trajopt.Props
