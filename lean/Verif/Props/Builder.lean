import Verif.Lemmas.Builder
import Verif.Lemmas.Extras
import Mathlib.Data.List.Induction
import Mathlib.Order.Lattice
import Mathlib.Tactic.NormNum

/-!
# C08–C15 The path builder

All statements are about any scalar arithmetic (`Dbl D` has no laws), hence also about doubles, and
about every history of calls, including calls that threw.
-/

set_option autoImplicit false

namespace Trajopt.Props

open Spec Builder

variable {D : Type} [Dbl D]

/-- C08: one guess list per waypoint, none empty. -/
theorem C08_tables (asserts : Bool) (ops : List (Op D)) (b : Builder D)
    (hb : b = run asserts ops Builder.new) :
    b.initialGuessPoints.length = b.path.waypoints.length ∧
    ∀ l ∈ b.initialGuessPoints, l ≠ [] := by
  subst hb
  have := wf_run (D := D) wf_new asserts ops
  exact ⟨this.guess, this.ne⟩

/-- C08: the guess list of waypoint 0 has exactly one pose unless a segment guess was given at
index `SIZE_MAX`. -/
theorem C08_first (asserts : Bool) (ops : List (Op D)) (b : Builder D)
    (hb : b = run asserts ops Builder.new)
    (hmax : ∀ i ps, .sgmtInitialGuessPoints i ps ∈ ops → i < 2 ^ 64 - 1)
    (l : List (Pose2 D)) (hl : b.initialGuessPoints[0]? = some l) : l.length = 1 := by
  subst hb
  induction ops using List.reverseRecOn generalizing l with
  | nil => simp [run, Builder.new] at hl
  | append_singleton ops op ih =>
    have ih' := ih fun i ps h => hmax i ps (by simp [h])
    have hwf := wf_run (D := D) wf_new asserts ops
    rw [run, List.foldl_append] at hl
    change ((op.exec asserts (run asserts ops Builder.new)).1).initialGuessPoints[0]? = _ at hl
    by_cases h : ∃ cs, op = .controlIntervalCounts cs
    · obtain ⟨cs, rfl⟩ := h
      exact ih' l hl
    · refine (step_exec (q := True) hwf asserts op (fun cs hc => h ⟨cs, hc⟩) ?_).g0 trivial ih' l hl
      rintro - i ps rfl
      have := hmax i ps (by simp)
      rw [wadd_eq (by omega)]
      omega

/-- The exception in C08 is real: `SgmtInitialGuessPoints(SIZE_MAX, …)` prepends to waypoint 0. -/
theorem C08_first_exception (asserts : Bool) (p : Pose2 D) :
    (run asserts [.sgmtInitialGuessPoints (2 ^ 64 - 1) [p]] Builder.new).initialGuessPoints =
      [[p, originPose]] := by
  have h : wadd (2 ^ 64 - 1) 1 = 0 := by decide
  simp only [run, List.foldl_cons, List.foldl_nil, Op.exec, sgmtInitialGuessPoints, h]
  rw [newWpts_eq (by simp [Builder.new]) (by norm_num)]
  rfl

/-- C09: without `ControlIntervalCounts` there is one count per segment, each 40. -/
theorem C09_default_counts (asserts : Bool) (ops : List (Op D)) (b : Builder D)
    (hb : b = run asserts ops Builder.new) (hops : ∀ cs, .controlIntervalCounts cs ∉ ops) :
    b.controlIntervalCounts = List.replicate (b.path.waypoints.length - 1) 40 := by
  subst hb
  have := (step_run (q := False) wf_new asserts ops
    (fun op hop cs h => hops cs (h ▸ hop)) (by simp)).counts
  simpa [Builder.new] using this

/-- C09: after `ControlIntervalCounts(c)` the counts are `c` and one 40 for every waypoint created
since, other than waypoint 0. -/
theorem C09_set_counts (asserts : Bool) (before after : List (Op D)) (c : List ℕ) (b b' : Builder D)
    (hb : b = run asserts before Builder.new)
    (hb' : b' = run asserts (.controlIntervalCounts c :: after) b)
    (hops : ∀ cs, .controlIntervalCounts cs ∉ after) :
    b'.controlIntervalCounts =
      c ++ List.replicate (b'.path.waypoints.length - max b.path.waypoints.length 1) 40 := by
  subst hb hb'
  have hwf := wf_exec (wf_run (D := D) wf_new asserts before) asserts (.controlIntervalCounts c)
  exact (step_run (q := False) hwf asserts after
    (fun op hop cs h => hops cs (h ▸ hop)) (by simp)).counts

/-- C10: no history of further calls removes or changes anything recorded: the constraint lists of
every waypoint and segment only get longer at the end, and no waypoint disappears. -/
theorem C10_append_only (asserts : Bool) (before after : List (Op D)) (b b' : Builder D)
    (hb : b = run asserts before Builder.new) (hb' : b' = run asserts after b) :
    (table b).waypoints ≤ (table b').waypoints ∧
    (∀ w, (table b).instant w <+: (table b').instant w) ∧
    (∀ s, (table b).continuous s <+: (table b').continuous s) := by
  subst hb hb'
  generalize hb : run asserts before Builder.new = b
  have hwf : WF b := hb ▸ wf_run wf_new asserts before
  clear hb
  induction after generalizing b with
  | nil => exact ⟨le_refl _, fun _ => List.prefix_rfl, fun _ => List.prefix_rfl⟩
  | cons op ops ih =>
    obtain ⟨h1, h2, h3⟩ := ih _ (wf_exec hwf asserts op)
    have key : (table b).waypoints ≤ (table (op.exec asserts b).1).waypoints ∧
        (∀ w, (table b).instant w <+: (table (op.exec asserts b).1).instant w) ∧
        (∀ s, (table b).continuous s <+: (table (op.exec asserts b).1).continuous s) := by
      by_cases h : ∃ cs, op = .controlIntervalCounts cs
      · obtain ⟨cs, rfl⟩ := h
        exact ⟨le_refl _, fun _ => List.prefix_rfl, fun _ => List.prefix_rfl⟩
      · have := step_exec (q := False) hwf asserts op (fun cs hc => h ⟨cs, hc⟩) (by simp)
        exact ⟨this.len, this.instant, this.continuous⟩
    exact ⟨le_trans key.1 h1, fun w => (key.2.1 w).trans (h2 w), fun s => (key.2.2 s).trans (h3 s)⟩

/-- C10, C11: `WptConstraint(i, c)` makes waypoints `0, …, i` exist (new ones unconstrained, guessed
at the origin, new segments with 40 intervals), adds `c` to waypoint `i`'s instantaneous constraints,
and does nothing else. -/
theorem C11_wpt_constraint (b : Builder D) (hb : Reachable b) (i : ℕ) (hi : i < 2 ^ 63)
    (c : Constraint D) : ∃ b', b.wptConstraint i c = (b', none) ∧
      table b' = ((table b).reach i).requireAt i c :=
  table_wptConstraint (wf_reachable hb) hi c

/-- C10, C11: `SgmtConstraint(i, j, c)`, `i < j`, makes waypoints `0, …, j` exist, adds `c` once at
each of waypoints `i, …, j` and once along each segment between them, and does nothing else. -/
theorem C11_sgmt_constraint (asserts : Bool) (b : Builder D) (hb : Reachable b) (i j : ℕ)
    (hij : i < j) (hj : j < 2 ^ 63) (c : Constraint D) :
    ∃ b', b.sgmtConstraint asserts i j c = (b', none) ∧
      table b' = ((table b).reach j).requireAlong i j c :=
  table_sgmtConstraint (wf_reachable hb) asserts hij hj c

omit [Dbl D] in
theorem reach_reach (t : PathTable D) (i : ℕ) : (t.reach i).reach i = t.reach i := by
  simp only [PathTable.reach]
  rw [show max (max t.waypoints (i + 1)) (i + 1) = max t.waypoints (i + 1) by omega,
    show max t.waypoints (i + 1) - max (max t.waypoints (i + 1)) 1 = 0 by omega]
  simp

/-- C12: `PoseWpt(i, x, y, h)` adds one pose equality at waypoint `i`, makes `(x, y, h)` the guess
at waypoint `i`, keeps the guesses inserted on the way to it, and does nothing else. -/
theorem C12_pose_wpt (b : Builder D) (hb : Reachable b) (i : ℕ) (hi : i < 2 ^ 63) (x y h : D) :
    ∃ b', b.poseWpt i x y h = (b', none) ∧
      table b' = (((table b).reach i).requireAt i (.poseEquality x y h)).guessAt i
        (.ofXYHeading x y h) := by
  have hwf := wf_reachable hb
  obtain ⟨b₁, h₁, t₁⟩ := table_wptConstraint hwf hi (.mkPoseEquality x y h)
  have hwf₁ : WF b₁ := by
    have := (step_wptConstraint (q := True) hwf i (.mkPoseEquality x y h)).wf
    rwa [h₁] at this
  obtain ⟨b₂, h₂, t₂⟩ := table_wptInitialGuessPoint hwf₁ hi (.ofXYHeading x y h)
  refine ⟨b₂, by simp only [poseWpt, h₁, andThen, h₂], ?_⟩
  rw [t₂, t₁, show ((table b).reach i).requireAt i (.mkPoseEquality x y h) =
    ((table b).requireAt i (.mkPoseEquality x y h)).reach i from rfl, reach_reach]
  rfl

/-- C12: `TranslationWpt(i, x, y, h)` likewise, with a translation equality and the heading only
guessed. -/
theorem C12_translation_wpt (b : Builder D) (hb : Reachable b) (i : ℕ) (hi : i < 2 ^ 63)
    (x y h : D) : ∃ b', b.translationWpt i x y h = (b', none) ∧
      table b' = (((table b).reach i).requireAt i (.translationEquality ⟨x, y⟩)).guessAt i
        (.ofXYHeading x y h) := by
  have hwf := wf_reachable hb
  obtain ⟨b₁, h₁, t₁⟩ := table_wptConstraint hwf hi (.mkTranslationEquality x y)
  have hwf₁ : WF b₁ := by
    have := (step_wptConstraint (q := True) hwf i (.mkTranslationEquality x y)).wf
    rwa [h₁] at this
  obtain ⟨b₂, h₂, t₂⟩ := table_wptInitialGuessPoint hwf₁ hi (.ofXYHeading x y h)
  refine ⟨b₂, by simp only [translationWpt, h₁, andThen, h₂], ?_⟩
  rw [t₂, t₁, show ((table b).reach i).requireAt i (.mkTranslationEquality x y) =
    ((table b).requireAt i (.mkTranslationEquality x y)).reach i from rfl, reach_reach]
  rfl

/-- C12: `WptInitialGuessPoint(i, p)` makes `p` the guess at waypoint `i` and does nothing else. -/
theorem C12_wpt_guess (b : Builder D) (hb : Reachable b) (i : ℕ) (hi : i < 2 ^ 63) (p : Pose2 D) :
    ∃ b', b.wptInitialGuessPoint i p = (b', none) ∧
      table b' = ((table b).reach i).guessAt i p :=
  table_wptInitialGuessPoint (wf_reachable hb) hi p

/-- C13: `SgmtInitialGuessPoints(i, ps)` inserts `ps` after waypoint `i`'s guess and before all that
was guessed on the way to waypoint `i + 1`, and does nothing else. -/
theorem C13_sgmt_guess (b : Builder D) (hb : Reachable b) (i : ℕ) (hi : i + 1 < 2 ^ 63)
    (ps : List (Pose2 D)) : ∃ b', b.sgmtInitialGuessPoints i ps = (b', none) ∧
      table b' = ((table b).reach (i + 1)).guessAlong i ps :=
  table_sgmtInitialGuessPoints (wf_reachable hb) hi ps

/-- C13: the guess at waypoint `i + 1` stays last. -/
theorem C13_last (b : Builder D) (hb : Reachable b) (i : ℕ) (hi : i + 1 < 2 ^ 63)
    (ps : List (Pose2 D)) (b' : Builder D) (h : b.sgmtInitialGuessPoints i ps = (b', none)) :
    ((table b').guess (i + 1)).getLast? = ((table b).guess (i + 1)).getLast? := by
  obtain ⟨b'', h', ht⟩ := C13_sgmt_guess b hb i hi ps
  rw [h] at h'
  cases h'
  have hne : (table b).guess (i + 1) ≠ [] := by
    simp only [table, List.getD_eq_getElem?_getD]
    cases hg : b.initialGuessPoints[i + 1]? with
    | none => simp
    | some l => exact (wf_reachable hb).ne l (List.mem_of_getElem? hg)
  rw [ht]
  simp only [PathTable.guessAlong, PathTable.reach, if_true]
  obtain ⟨a, l, h⟩ := List.exists_cons_of_ne_nil hne
  rw [h, List.getLast?_append, List.getLast?_eq_some_getLast (by simp)]
  rfl

/-- C13: setting the waypoint guess before or after inserting segment guess points gives the same
table. -/
theorem C13_order (asserts : Bool) (b : Builder D) (hb : Reachable b) (i : ℕ) (hi : i + 1 < 2 ^ 63)
    (ps : List (Pose2 D)) (p : Pose2 D) :
    table (run asserts [.sgmtInitialGuessPoints i ps, .wptInitialGuessPoint (i + 1) p] b) =
    table (run asserts [.wptInitialGuessPoint (i + 1) p, .sgmtInitialGuessPoints i ps] b) := by
  have hwf := wf_reachable hb
  obtain ⟨b₁, h₁, t₁⟩ := table_sgmtInitialGuessPoints hwf hi ps
  obtain ⟨b₂, h₂, t₂⟩ := table_wptInitialGuessPoint hwf hi p
  have hwf₁ : WF b₁ := by
    have := wf_exec hwf asserts (.sgmtInitialGuessPoints i ps)
    rwa [Op.exec, h₁] at this
  have hwf₂ : WF b₂ := by
    have := wf_exec hwf asserts (.wptInitialGuessPoint (i + 1) p)
    rwa [Op.exec, h₂] at this
  obtain ⟨b₃, h₃, t₃⟩ := table_wptInitialGuessPoint hwf₁ hi p
  obtain ⟨b₄, h₄, t₄⟩ := table_sgmtInitialGuessPoints hwf₂ hi ps
  simp only [run, List.foldl_cons, List.foldl_nil, Op.exec, h₁, h₂, h₃, h₄, t₁, t₂, t₃, t₄]
  rw [show (((table b).reach (i + 1)).guessAlong i ps).reach (i + 1) =
    (((table b).reach (i + 1)).reach (i + 1)).guessAlong i ps from rfl,
    show (((table b).reach (i + 1)).guessAt (i + 1) p).reach (i + 1) =
    (((table b).reach (i + 1)).reach (i + 1)).guessAt (i + 1) p from rfl, reach_reach]
  have hne : (table b).guess (i + 1) ≠ [] := by
    simp only [table, List.getD_eq_getElem?_getD]
    cases hg : b.initialGuessPoints[i + 1]? with
    | none => simp
    | some l => exact hwf.ne l (List.mem_of_getElem? hg)
  simp only [PathTable.guessAt, PathTable.guessAlong, PathTable.reach, PathTable.mk.injEq, true_and,
    and_true]
  funext w
  by_cases h : w = i + 1
  · subst h; simp [List.dropLast_append_of_ne_nil hne]
  · simp [h]

/-! ### C14 Constraint calls commute -/

/-- The constraint calls C14 is about, with indices that are waypoint indices. -/
inductive ConstraintCall : Op D → Prop where
  | wpt (i : ℕ) (c : Constraint D) (hi : i < 2 ^ 63) : ConstraintCall (.wptConstraint i c)
  | sgmt (i j : ℕ) (c : Constraint D) (hij : i < j) (hj : j < 2 ^ 63) :
    ConstraintCall (.sgmtConstraint i j c)

/-- Last waypoint a constraint call names. -/
def callMax : Op D → ℕ
  | .wptConstraint i _ => i + 1
  | .sgmtConstraint _ j _ => j + 1
  | _ => 0

/-- What a constraint call requires at waypoint `w`. -/
def callInstant (w : ℕ) : Op D → List (Constraint D)
  | .wptConstraint i c => if w = i then [c] else []
  | .sgmtConstraint i j c => if i ≤ w ∧ w ≤ j then [c] else []
  | _ => []

/-- What a constraint call requires along segment `s`. -/
def callContinuous (s : ℕ) : Op D → List (Constraint D)
  | .sgmtConstraint i j c => if i ≤ s ∧ s < j then [c] else []
  | _ => []

/-- A sequence of constraint calls in closed form. -/
theorem constraint_calls (asserts : Bool) (b : Builder D) (hwf : WF b) (ops : List (Op D))
    (hops : ∀ op ∈ ops, ConstraintCall op) :
    WF (run asserts ops b) ∧
    (table (run asserts ops b)).waypoints = ops.foldr (fun op n => max (callMax op) n)
      (table b).waypoints ∧
    (∀ w, (table (run asserts ops b)).instant w = (table b).instant w ++ ops.flatMap (callInstant w)) ∧
    (∀ s, (table (run asserts ops b)).continuous s =
      (table b).continuous s ++ ops.flatMap (callContinuous s)) ∧
    (table (run asserts ops b)).guess = (table b).guess ∧
    (table (run asserts ops b)).drivetrain = (table b).drivetrain ∧
    (table (run asserts ops b)).callbacks = (table b).callbacks ∧
    (table (run asserts ops b)).bumpers = (table b).bumpers := by
  induction ops generalizing b with
  | nil => simp [run, hwf]
  | cons op ops ih =>
    have hwf' := wf_exec hwf asserts op
    obtain ⟨h1, h2, h3, h4, h5, h6, h7, h8⟩ := ih _ hwf' fun op h => hops op (by simp [h])
    have hrun : run asserts (op :: ops) b = run asserts ops (op.exec asserts b).1 := rfl
    have hfold : ∀ (m n : ℕ), ops.foldr (fun op n => max (callMax op) n) (max n m) =
        max m (ops.foldr (fun op n => max (callMax op) n) n) := by
      intro m n
      clear * -
      induction ops with
      | nil => simp [max_comm]
      | cons op ops ih => simp only [List.foldr_cons, ih]; omega
    rw [hrun]
    rcases hops op (by simp) with ⟨i, c, hi⟩ | ⟨i, j, c, hij, hj⟩
    · obtain ⟨b', hb', ht⟩ := table_wptConstraint hwf hi c
      simp only [Op.exec, hb'] at h1 h2 h3 h4 h5 h6 h7 h8 ⊢
      refine ⟨h1, ?_, ?_, ?_, ?_, ?_, ?_, ?_⟩
      · rw [h2, ht]
        exact hfold _ _
      · intro w
        rw [h3, ht]
        simp only [PathTable.requireAt, PathTable.reach, List.flatMap_cons, callInstant]
        split <;> simp
      · intro w
        rw [h4, ht]
        simp [PathTable.requireAt, PathTable.reach, callContinuous]
      · rw [h5, ht]; rfl
      · rw [h6, ht]; rfl
      · rw [h7, ht]; rfl
      · rw [h8, ht]; rfl
    · obtain ⟨b', hb', ht⟩ := table_sgmtConstraint hwf asserts hij hj c
      simp only [Op.exec, hb'] at h1 h2 h3 h4 h5 h6 h7 h8 ⊢
      refine ⟨h1, ?_, ?_, ?_, ?_, ?_, ?_, ?_⟩
      · rw [h2, ht]
        exact hfold _ _
      · intro w
        rw [h3, ht]
        simp only [PathTable.requireAlong, PathTable.reach, List.flatMap_cons, callInstant]
        split <;> simp
      · intro w
        rw [h4, ht]
        simp only [PathTable.requireAlong, PathTable.reach, List.flatMap_cons, callContinuous]
        split <;> simp
      · rw [h5, ht]; rfl
      · rw [h6, ht]; rfl
      · rw [h7, ht]; rfl
      · rw [h8, ht]; rfl

/-- C14: reordering constraint calls leads to the same path, up to the order of the constraints at
each waypoint and along each segment. -/
theorem C14_commute (asserts : Bool) (b : Builder D) (hb : Reachable b) (ops ops' : List (Op D))
    (hops : ∀ op ∈ ops, ConstraintCall op) (hperm : ops.Perm ops')
    (t t' : PathTable D) (ht : t = table (run asserts ops b)) (ht' : t' = table (run asserts ops' b)) :
    t.waypoints = t'.waypoints ∧ t.guess = t'.guess ∧ t.counts = t'.counts ∧
    (∀ w, (t.instant w).Perm (t'.instant w)) ∧
    (∀ s, (t.continuous s).Perm (t'.continuous s)) ∧
    t.drivetrain = t'.drivetrain ∧ t.callbacks = t'.callbacks ∧ t.bumpers = t'.bumpers := by
  subst ht ht'
  have hwf := wf_reachable hb
  have hops' : ∀ op ∈ ops', ConstraintCall op := fun op h => hops op (hperm.mem_iff.mpr h)
  obtain ⟨-, h2, h3, h4, h5, h6, h7, h8⟩ := constraint_calls asserts b hwf ops hops
  obtain ⟨-, k2, k3, k4, k5, k6, k7, k8⟩ := constraint_calls asserts b hwf ops' hops'
  have hw : (table (run asserts ops b)).waypoints = (table (run asserts ops' b)).waypoints := by
    rw [h2, k2]
    exact hperm.foldr_eq' (fun x _ y _ z => by omega) _
  refine ⟨hw, h5.trans k5.symm, ?_, ?_, ?_, h6.trans k6.symm, h7.trans k7.symm, h8.trans k8.symm⟩
  · have hc : ∀ ops : List (Op D), (∀ op ∈ ops, ConstraintCall op) →
        ∀ op ∈ ops, ∀ cs, op ≠ .controlIntervalCounts cs := by
      rintro ops hops op hop cs rfl
      cases hops _ hop
    have c1 := (step_run (q := False) hwf asserts ops (hc ops hops) (by simp)).counts
    have c2 := (step_run (q := False) hwf asserts ops' (hc ops' hops') (by simp)).counts
    simp only [table] at hw ⊢
    rw [c1, c2, hw]
  · intro w
    rw [h3, k3]
    exact (hperm.flatMap_right _).append_left _
  · intro s
    rw [h4, k4]
    exact (hperm.flatMap_right _).append_left _

/-! ### C15 Indices that do not fit -/

omit [Dbl D] in
theorem modifyWpt_big {b : Builder D} (hwf : WF b) {i : ℕ} (hi : 2 ^ 63 ≤ i)
    (f : Waypoint D → Waypoint D) : b.modifyWpt i f = (b, some .outOfRange) := by
  have := hwf.len
  rw [modifyWpt, if_neg (by omega)]

/-- C15: waypoint-constraint and waypoint-guess calls with an index `≥ 2^63` throw `out_of_range`
and leave the builder unchanged. -/
theorem C15_rejected (b : Builder D) (hb : Reachable b) (i : ℕ) (hi : 2 ^ 63 ≤ i) (hi' : i < 2 ^ 64) :
    (∀ c, b.wptConstraint i c = (b, some .outOfRange)) ∧
    (∀ p, b.wptInitialGuessPoint i p = (b, some .outOfRange)) ∧
    (∀ x y h, b.poseWpt i x y h = (b, some .outOfRange)) ∧
    (∀ x y h, b.translationWpt i x y h = (b, some .outOfRange)) ∧
    (∀ ps, b.sgmtInitialGuessPoints (i - 1) ps = (b, some .outOfRange)) := by
  have hwf := wf_reachable hb
  have hlen := hwf.len
  have hg := hwf.guess
  have hnew : b.newWpts i = b := newWpts_big hlen (by omega)
  have hc : ∀ c, b.wptConstraint i c = (b, some .outOfRange) := by
    intro c
    rw [wptConstraint, hnew, modifyWpt_big hwf hi]
  have hnone : b.initialGuessPoints[i]? = none := List.getElem?_eq_none (by omega)
  refine ⟨hc, ?_, ?_, ?_, ?_⟩
  · intro p
    simp only [wptInitialGuessPoint, hnew, hnone]
  · intro x y h
    simp only [poseWpt, hc, andThen]
  · intro x y h
    simp only [translationWpt, hc, andThen]
  · intro ps
    have : wadd (i - 1) 1 = i := by rw [wadd_eq (by omega)]; omega
    simp only [sgmtInitialGuessPoints, this, hnew, hnone]

/-- C15, the exception: `SgmtConstraint(i, j, c)` with `j ≥ 2^63` also throws, but only after `c` was
recorded from waypoint `i` to the last existing waypoint. -/
theorem C15_sgmt_partial_effect (asserts : Bool) (b : Builder D) (hb : Reachable b) (i j : ℕ)
    (hij : i < j) (hj : 2 ^ 63 ≤ j) (hj' : j < 2 ^ 64) (c : Constraint D) :
    ∃ b', b.sgmtConstraint asserts i j c = (b', some .outOfRange) ∧
      table b' = if i < (table b).waypoints then
        (table b).requireAlong i ((table b).waypoints - 1) c else table b := by
  have hwf := wf_reachable hb
  have hlen := hwf.len
  have hnew : b.newWpts j = b := newWpts_big hlen (by omega)
  unfold sgmtConstraint
  rw [if_neg (by simp [hij]), hnew, modifyWpt_eq]
  by_cases h : i < b.path.waypoints.length
  · rw [if_pos h]
    simp only [andThen]
    rw [sgmtLoop_error _ _ _ _ (by simp [withWpts]; omega) (by simp [withWpts]; omega)]
    refine ⟨_, rfl, ?_⟩
    obtain ⟨m, hm⟩ : ∃ m, b.path.waypoints.length = m + 1 := ⟨b.path.waypoints.length - 1, by omega⟩
    have key := table_along (b := b) (i := i) (j := m) c (by omega) (by omega)
    have hm' : (table b).waypoints - 1 = m := by simp only [table]; omega
    rw [if_pos (by exact h), hm', ← key, ← hm]
    simp only [table, withWpts, List.length_mapIdx]
  · rw [if_neg h]
    exact ⟨b, rfl, by rw [if_neg (by exact h)]⟩

/-! ### Non-vacuity: a concrete history -/

section Example
variable (x : D)

/-- A builder with three waypoints, a segment constraint and a segment guess. -/
def exampleOps : List (Op D) :=
  [.poseWpt 0 x x x, .translationWpt 2 x x x,
   .sgmtConstraint 0 2 (.linearVelocityMaxMagnitude x),
   .sgmtInitialGuessPoints 1 [.ofXYHeading x x x]]

/-- The example builder. -/
def exampleBuilder : Builder D := run false (exampleOps x) Builder.new

theorem exampleBuilder_eq : exampleBuilder x =
    { path := { waypoints := [
        ⟨[.poseEquality x x x, .linearVelocityMaxMagnitude x], []⟩,
        ⟨[.linearVelocityMaxMagnitude x], [.linearVelocityMaxMagnitude x]⟩,
        ⟨[.translationEquality ⟨x, x⟩, .linearVelocityMaxMagnitude x],
          [.linearVelocityMaxMagnitude x]⟩] }
      initialGuessPoints := [[.ofXYHeading x x x], [originPose],
        [.ofXYHeading x x x, .ofXYHeading x x x]]
      controlIntervalCounts := [40, 40] } := by
  simp [exampleBuilder, exampleOps, run, Op.exec, poseWpt, translationWpt, wptConstraint, newWpts_eq,
    grow, wadd, modifyWpt, Builder.new, andThen, wptInitialGuessPoint,
    sgmtConstraint, sgmtLoop, sgmtInitialGuessPoints, pushWpt, pushSgmt, Constraint.mkPoseEquality,
    Constraint.mkTranslationEquality, originPose]

example : Reachable (exampleBuilder x) := ⟨_, _, rfl⟩

example : (table (exampleBuilder x)).waypoints = 3 ∧ (table (exampleBuilder x)).counts = [40, 40] ∧
    (table (exampleBuilder x)).instant 0 =
      [.poseEquality x x x, .linearVelocityMaxMagnitude x] ∧
    (table (exampleBuilder x)).instant 1 = [.linearVelocityMaxMagnitude x] ∧
    (table (exampleBuilder x)).instant 2 =
      [.translationEquality ⟨x, x⟩, .linearVelocityMaxMagnitude x] ∧
    (table (exampleBuilder x)).continuous 0 = [.linearVelocityMaxMagnitude x] ∧
    (table (exampleBuilder x)).continuous 1 = [.linearVelocityMaxMagnitude x] ∧
    (table (exampleBuilder x)).continuous 2 = [] ∧
    (table (exampleBuilder x)).guess 2 = [.ofXYHeading x x x, .ofXYHeading x x x] :=
  by rw [exampleBuilder_eq]; exact ⟨rfl, rfl, rfl, rfl, rfl, rfl, rfl, rfl, rfl⟩

/-- The reordering in C14 is non-trivial. -/
example : ∃ ops ops' : List (Op D), (∀ op ∈ ops, ConstraintCall op) ∧ ops.Perm ops' ∧
    (run false ops Builder.new).path.waypoints.length = 4 ∧ ops.length = 2 :=
  ⟨[.wptConstraint 1 (.linearVelocityMaxMagnitude x), .sgmtConstraint 1 3 (.linearVelocityDirection x)],
   [.sgmtConstraint 1 3 (.linearVelocityDirection x), .wptConstraint 1 (.linearVelocityMaxMagnitude x)],
   by
    intro op hop
    simp only [List.mem_cons, List.not_mem_nil, or_false] at hop
    rcases hop with rfl | rfl
    · exact .wpt _ _ (by norm_num)
    · exact .sgmt _ _ _ (by norm_num) (by norm_num), List.Perm.swap _ _ _, by
    simp [run, Op.exec, wptConstraint, newWpts_eq, grow, modifyWpt, Builder.new,
      andThen, sgmtConstraint, sgmtLoop], rfl⟩

/-- Counts set explicitly are kept, later waypoints get 40. -/
example : (run false [.controlIntervalCounts [7], .poseWpt 2 x x x] Builder.new
    |>.controlIntervalCounts) = [7, 40, 40] := by
  simp [run, Op.exec, poseWpt, wptConstraint, newWpts_eq, grow, modifyWpt,
    Builder.new, andThen, wptInitialGuessPoint, setControlIntervalCounts]

end Example

/-! ### C64 Drivetrain and callbacks -/

/-- The callback a call registers. -/
def registers : Op D → Option ℕ
  | .addIntermediateCallback k => some k
  | _ => none

omit [Dbl D] in
theorem fold_drivetrain (ops : List (Op D))
    (x : List (Obstacle D) × Option (SwerveDrivetrain D) × List ℕ)
    (h : ∀ d', .setDrivetrain d' ∉ ops) : (ops.foldl afterOp x).2.1 = x.2.1 := by
  induction ops generalizing x with
  | nil => rfl
  | cons op ops ih =>
    rw [List.foldl_cons, ih _ fun d' hd => h d' (by simp [hd])]
    cases op <;> first | rfl | exact absurd List.mem_cons_self (h _)

/-- C64: the drivetrain is the one set last, whatever else was called. -/
theorem C64_drivetrain (asserts : Bool) (before after : List (Op D)) (d : SwerveDrivetrain D)
    (hafter : ∀ d', .setDrivetrain d' ∉ after) :
    (table (run asserts (before ++ .setDrivetrain d :: after) Builder.new)).drivetrain = some d := by
  have h := congrArg (fun x => x.2.1) (run_extras asserts (before ++ .setDrivetrain d :: after)
    (Builder.new : Builder D))
  rw [List.foldl_append, List.foldl_cons, fold_drivetrain after _ hafter] at h
  exact h

/-- C64: without `SetDrivetrain` there is no drivetrain. -/
theorem C64_no_drivetrain (asserts : Bool) (ops : List (Op D)) (h : ∀ d, .setDrivetrain d ∉ ops) :
    (table (run asserts ops Builder.new)).drivetrain = none := by
  have h' := congrArg (fun x => x.2.1) (run_extras asserts ops (Builder.new : Builder D))
  rw [fold_drivetrain ops _ h] at h'
  exact h'

/-- C64: the callbacks are those registered, in order, each as often as it was registered. -/
theorem C64_callbacks (asserts : Bool) (ops : List (Op D)) :
    (table (run asserts ops Builder.new)).callbacks = ops.filterMap registers := by
  have key : ∀ (ops : List (Op D)) (x : List (Obstacle D) × Option (SwerveDrivetrain D) × List ℕ),
      (ops.foldl afterOp x).2.2 = x.2.2 ++ ops.filterMap registers := by
    intro ops
    induction ops with
    | nil => simp
    | cons op ops ih =>
      intro x
      rw [List.foldl_cons, ih]
      cases op <;> simp [afterOp, registers, List.filterMap_cons]
  have h := congrArg (fun x => x.2.2) (run_extras asserts ops (Builder.new : Builder D))
  rw [key] at h
  exact h

/-- Non-vacuity for C64. -/
example (d d' : SwerveDrivetrain D) :
    table (run true [.setDrivetrain d, .addIntermediateCallback 2, .setDrivetrain d',
      .addIntermediateCallback 1, .addIntermediateCallback 2] Builder.new) =
    { table (Builder.new : Builder D) with drivetrain := some d', callbacks := [2, 1, 2] } := rfl

end Trajopt.Props
