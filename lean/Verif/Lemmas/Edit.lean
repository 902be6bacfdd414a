import Verif.Lemmas.Builder
import Verif.Lemmas.Generator
import Verif.Props.Generator
import Verif.Model.Edit

/-!
# Helper lemmas for edited paths (C77)
-/

set_option autoImplicit false

namespace Trajopt

open Spec Builder

variable {D : Type} [Dbl D]

/-- No list of guesses is empty. -/
def NE (b : Builder D) : Prop := ∀ l ∈ b.initialGuessPoints, l ≠ []

theorem ne_newWptsLoop (n : ℕ) (i : ℤ) {b : Builder D} (hb : NE b) : NE (newWptsLoop n i b) := by
  induction n generalizing i b with
  | zero => exact hb
  | succ n ih =>
    refine ih _ ?_
    intro l hl
    simp only [List.mem_append, List.mem_singleton] at hl
    rcases hl with h | rfl
    · exact hb l h
    · simp

theorem ne_newWpts (i : ℕ) {b : Builder D} (hb : NE b) : NE (b.newWpts i) := by
  unfold newWpts
  dsimp only
  split
  · exact ne_newWptsLoop _ _ hb
  · exact hb

omit [Dbl D] in
theorem ne_modifyWpt (i : ℕ) (f : Waypoint D → Waypoint D) {b : Builder D} (hb : NE b) :
    NE (b.modifyWpt i f).1 := by
  unfold modifyWpt
  split <;> exact hb

omit [Dbl D] in
theorem ne_andThen {o : Out D} {f : Builder D → Out D} (h : NE o.1)
    (hf : ∀ b', NE b' → NE (f b').1) : NE (andThen o f).1 := by
  obtain ⟨b', e⟩ := o
  cases e with
  | none => exact hf b' h
  | some e => exact h

theorem ne_wptConstraint (i : ℕ) (c : Constraint D) {b : Builder D} (hb : NE b) :
    NE (b.wptConstraint i c).1 := ne_modifyWpt _ _ (ne_newWpts _ hb)

omit [Dbl D] in
theorem ne_sgmtLoop (c : Constraint D) (n i : ℕ) {b : Builder D} (hb : NE b) :
    NE (sgmtLoop c n i b).1 := by
  induction n generalizing i b with
  | zero => exact hb
  | succ n ih =>
    exact ne_andThen (ne_modifyWpt _ _ hb) fun b' hb' =>
      ne_andThen (ne_modifyWpt _ _ hb') fun b'' hb'' => ih _ hb''

theorem ne_sgmtConstraint (asserts : Bool) (i j : ℕ) (c : Constraint D) {b : Builder D}
    (hb : NE b) : NE (b.sgmtConstraint asserts i j c).1 := by
  unfold sgmtConstraint
  split
  · exact hb
  · exact ne_andThen (ne_modifyWpt _ _ (ne_newWpts _ hb)) fun b' hb' => ne_sgmtLoop _ _ _ hb'

omit [Dbl D] in
theorem ne_recordAll {record : Constraint D → Builder D → Out D}
    (hr : ∀ c b, NE b → NE (record c b).1) (l : List (Res (Constraint D))) {b : Builder D}
    (hb : NE b) : NE (recordAll record l b).1 := by
  induction l generalizing b with
  | nil => exact hb
  | cons c l ih =>
    cases c with
    | error e => exact hb
    | ok c => exact ne_andThen (hr c b hb) fun b' hb' => ih hb'

omit [Dbl D] in
theorem ne_set {b : Builder D} (hb : NE b) (i : ℕ) (l : List (Pose2 D)) (hl : l ≠ []) :
    NE { b with initialGuessPoints := b.initialGuessPoints.set i l } := by
  intro l' hl'
  rcases List.mem_or_eq_of_mem_set hl' with h | h
  · exact hb _ h
  · exact h ▸ hl

theorem ne_wptInitialGuessPoint (i : ℕ) (p : Pose2 D) {b : Builder D} (hb : NE b) :
    NE (b.wptInitialGuessPoint i p).1 := by
  have h1 := ne_newWpts i hb
  unfold wptInitialGuessPoint
  dsimp only
  split
  · exact h1
  · exact h1
  · exact ne_set h1 _ _ (by simp)

theorem ne_sgmtInitialGuessPoints (i : ℕ) (ps : List (Pose2 D)) {b : Builder D} (hb : NE b) :
    NE (b.sgmtInitialGuessPoints i ps).1 := by
  have h1 := ne_newWpts (wadd i 1) hb
  unfold sgmtInitialGuessPoints
  dsimp only
  split
  · exact h1
  next l h =>
    have := h1 l (List.mem_of_getElem? h)
    exact ne_set h1 _ _ (by simp [this])

theorem ne_exec (asserts : Bool) (op : Op D) {b : Builder D} (hb : NE b) :
    NE (op.exec asserts b).1 := by
  cases op with
  | setDrivetrain d => exact hb
  | poseWpt i x y h =>
    exact ne_andThen (ne_wptConstraint i _ hb) fun b' hb' => ne_wptInitialGuessPoint i _ hb'
  | translationWpt i x y h =>
    exact ne_andThen (ne_wptConstraint i _ hb) fun b' hb' => ne_wptInitialGuessPoint i _ hb'
  | wptInitialGuessPoint i p => exact ne_wptInitialGuessPoint i p hb
  | sgmtInitialGuessPoints i ps => exact ne_sgmtInitialGuessPoints i ps hb
  | addBumpers o => exact hb
  | wptObstacle i o => exact ne_recordAll (fun c b hb => ne_wptConstraint i c hb) _ hb
  | sgmtObstacle i j o =>
    exact ne_recordAll (fun c b hb => ne_sgmtConstraint asserts i j c hb) _ hb
  | wptConstraint i c => exact ne_wptConstraint i c hb
  | sgmtConstraint i j c => exact ne_sgmtConstraint asserts i j c hb
  | controlIntervalCounts cs => exact hb
  | addIntermediateCallback k => exact hb

theorem ne_runActs (asserts : Bool) (as : List (Act D)) {b : Builder D} (hb : NE b) :
    NE (runActs asserts as b) := by
  induction as generalizing b with
  | nil => exact hb
  | cons a as ih =>
    refine ih ?_
    cases a with
    | call op => exact ne_exec asserts op hb
    | edit f => exact hb

/-- Outcome of the initial guess, by the number of guess lists and counts. -/
theorem guess_cases {pts : List (List (Pose2 D))} {N : List ℕ} (ne : ∀ l ∈ pts, l ≠ [])
    (hN : sampleCount N < 2 ^ 64) :
    (pts = [] → generateLinearInitialGuess pts N = .error .ub) ∧
    (0 < pts.length → pts.length ≤ N.length →
      generateLinearInitialGuess pts N = .error .outOfRange) ∧
    (N.length < pts.length → GuessOk pts N) := by
  have hidx : getIndex N (N.length + 1) 0 = .ok (1 + N.sum) := Props.C01_sample_count N hN
  have some : ∀ i < pts.length, ∃ p ps, pts[i]? = some (p :: ps) := by
    intro i hi
    obtain ⟨p, ps, h⟩ := List.exists_cons_of_ne_nil (ne _ (List.getElem_mem hi))
    exact ⟨p, ps, by rw [List.getElem?_eq_getElem hi, h]⟩
  refine ⟨?_, ?_, ?_⟩
  · rintro rfl
    simp only [generateLinearInitialGuess, hidx, Except.ok_bind]
    rfl
  · intro h0 h
    obtain ⟨k, hk⟩ : ∃ k, pts.length = k + 1 := ⟨_, (Nat.succ_pred_eq_of_pos h0).symm⟩
    obtain ⟨p, ps, hp⟩ := some 0 h0
    have hseg : (List.range' 1 (N.length + 1 - 1)).mapM (guessSegment pts N) =
        .error .outOfRange := by
      obtain ⟨r, hr⟩ : ∃ r, N.length = k + (1 + r) := ⟨N.length - (k + 1), by omega⟩
      rw [Nat.add_sub_cancel, hr, ← List.range'_append_1, Nat.add_comm 1 r, List.range'_succ]
      refine mapM_error (g := fun w => segClosed (lastGuess pts (w - 1))
        (pts.getD w []) (N.getD (w - 1) 0)) ?_ ?_
      · intro w hw
        rw [List.mem_range'_1] at hw
        obtain ⟨q, qs, hq⟩ := some w (by omega)
        obtain ⟨q', qs', hq'⟩ := some (w - 1) (by omega)
        have hN' : w - 1 < N.length := by omega
        rw [guessSegment_ok (n := N.getD (w - 1) 0) (cur := q :: qs)
          (prevl := q' :: qs') (prev := (q' :: qs').getLast (by simp))
          (by rw [getD_lt hN', List.getElem?_eq_getElem hN']) hq hq'
          (List.getLast?_eq_some_getLast _) (by simp)]
        simp only [lastGuess, List.getD, hq, hq', Option.getD_some]
        congr 2
      · have h2 : vat pts (1 + k) = .error .outOfRange := vat_error (by omega)
        simp only [guessSegment, vat_ok (show 1 + k - 1 < N.length by omega),
          Except.ok_bind, h2, Except.error_bind]
    obtain ⟨l, ls, hl⟩ := List.exists_cons_of_length_eq_add_one hk
    have hl' : l = p :: ps := by rw [hl] at hp; simpa using hp
    simp only [generateLinearInitialGuess, hidx,
      Except.ok_bind, vfront_ok (show pts.head? = .some l by rw [hl]; rfl),
      vfront_ok (show l.head? = .some p by rw [hl']; rfl), hseg, Except.error_bind]
  · intro h i hi
    exact some i (by omega)

theorem guess_ok_sized {b : Builder D} (hb : NE b)
    (hg : b.controlIntervalCounts.length < b.initialGuessPoints.length)
    (hN : sampleCount b.controlIntervalCounts < 2 ^ 64) :
    ∃ sol, b.calculateInitialGuess = .ok sol ∧
      GuessSized sol (1 + b.controlIntervalCounts.sum) := by
  have h := generate_eq_ok ((guess_cases hb hN).2.2 hg)
    (Props.C01_sample_count b.controlIntervalCounts hN)
  refine ⟨_, h, ?_⟩
  obtain ⟨h1, h2, h3, h4, h5⟩ := Props.C04_guess_lengths _ _ _ h hN
  exact ⟨h1, h2, h3, h4, h5⟩

/-- Too few waypoints: `path.waypoints.at` throws. -/
theorem waypointCons_throws (m : ℕ) (path : SwervePath D) (N dts : List ℕ)
    (hN : 1 + N.sum < 2 ^ 64) (hw : path.waypoints.length ≤ N.length) :
    waypointCons path N (closedVars m (1 + N.sum) dts) = .error .outOfRange := by
  unfold waypointCons
  obtain ⟨r, hr⟩ : ∃ r, 1 + N.length = path.waypoints.length + (1 + r) :=
    ⟨N.length - path.waypoints.length, by omega⟩
  have hsplit : List.range (1 + N.length) = List.range path.waypoints.length ++
      path.waypoints.length :: List.range' (path.waypoints.length + 1) r := by
    rw [List.range_eq_range', List.range_eq_range', hr, ← List.range'_append_1, Nat.add_comm 1 r,
      List.range'_succ, Nat.zero_add]
  rw [hsplit, mapM_error (e := .outOfRange)
    (g := fun w => (path.waypoints.getD w {}).waypointConstraints.flatMap fun c =>
        c.apply (sampleVars m (N.take w).sum))]
  · rfl
  · intro w hw'
    rw [List.mem_range] at hw'
    have hle := sum_take_le N w
    rw [vat_ok hw', Except.ok_bind,
      mapM_ok (g := fun c => c.apply (sampleVars m (N.take w).sum))]
    · simp only [Except.ok_bind, getD_lt hw']
      rw [List.flatMap_def]
      rfl
    · intro c _
      rw [getIndex_succ N w 0 (by omega) (by omega), Except.ok_bind,
        wsub_eq (by omega) (by omega), show 1 + (N.take w).sum + 0 - 1 = (N.take w).sum by omega,
        sampleAt_eq _ (by omega)]
      rfl
  · rw [vat_error (by omega)]
    rfl

/-- What calls other than `ControlIntervalCounts` do to the sizes of the members. -/
structure Grows (b b' : Builder D) : Prop where
  bound : b'.path.waypoints.length ≤ 2 ^ 63
  len : b.path.waypoints.length ≤ b'.path.waypoints.length
  guess : b'.initialGuessPoints.length =
    b.initialGuessPoints.length + (b'.path.waypoints.length - b.path.waypoints.length)
  counts : b'.controlIntervalCounts = b.controlIntervalCounts ++
    List.replicate (b'.path.waypoints.length - max b.path.waypoints.length 1) 40

omit [Dbl D] in
theorem Grows.refl {b : Builder D} (h : b.path.waypoints.length ≤ 2 ^ 63) : Grows b b :=
  ⟨h, Nat.le_refl _, by simp,
    by simp [show b.path.waypoints.length - max b.path.waypoints.length 1 = 0 by omega]⟩

omit [Dbl D] in
theorem Grows.trans {b₁ b₂ b₃ : Builder D} (h : Grows b₁ b₂) (h' : Grows b₂ b₃) :
    Grows b₁ b₃ := by
  have h1 := h.len
  have h2 := h'.len
  refine ⟨h'.bound, Nat.le_trans h1 h2, ?_, ?_⟩
  · rw [h'.guess, h.guess]; omega
  · rw [h'.counts, h.counts, List.append_assoc, List.replicate_append_replicate]
    congr 2
    omega

omit [Dbl D] in
/-- Nothing changed in size. -/
theorem Grows.same {b b' : Builder D} (h : b.path.waypoints.length ≤ 2 ^ 63)
    (hw : b'.path.waypoints.length = b.path.waypoints.length)
    (hg : b'.initialGuessPoints.length = b.initialGuessPoints.length)
    (hc : b'.controlIntervalCounts = b.controlIntervalCounts) : Grows b b' :=
  ⟨by omega, by omega, by omega, by
    rw [hc, hw, show b.path.waypoints.length - max b.path.waypoints.length 1 = 0 by omega]
    simp⟩

theorem grows_newWpts {b : Builder D} (hb : b.path.waypoints.length ≤ 2 ^ 63) (k : ℕ) :
    Grows b (b.newWpts k) := by
  obtain ⟨n, m, h, hn, hm⟩ := newWpts_grow hb k
  rw [h]
  refine ⟨by simpa [grow] using hn, by simp [grow], by simp [grow], ?_⟩
  simp only [grow, List.length_append, List.length_replicate, hm]

omit [Dbl D] in
theorem grows_modifyWpt {b : Builder D} (hb : b.path.waypoints.length ≤ 2 ^ 63) (i : ℕ)
    (f : Waypoint D → Waypoint D) : Grows b (b.modifyWpt i f).1 := by
  unfold modifyWpt
  split
  · exact .same hb (by simp) rfl rfl
  · exact .refl hb

omit [Dbl D] in
theorem grows_andThen {b : Builder D} {o : Out D} {f : Builder D → Out D} (h : Grows b o.1)
    (hf : ∀ b' : Builder D, b'.path.waypoints.length ≤ 2 ^ 63 → Grows b' (f b').1) :
    Grows b (andThen o f).1 := by
  obtain ⟨b', e⟩ := o
  cases e with
  | none => exact h.trans (hf b' h.bound)
  | some e => exact h

theorem grows_wptConstraint {b : Builder D} (hb : b.path.waypoints.length ≤ 2 ^ 63) (i : ℕ)
    (c : Constraint D) : Grows b (b.wptConstraint i c).1 :=
  (grows_newWpts hb i).trans (grows_modifyWpt (grows_newWpts hb i).bound _ _)

omit [Dbl D] in
theorem grows_sgmtLoop (c : Constraint D) (n i : ℕ) {b : Builder D}
    (hb : b.path.waypoints.length ≤ 2 ^ 63) : Grows b (sgmtLoop c n i b).1 := by
  induction n generalizing i b with
  | zero => exact .refl hb
  | succ n ih =>
    exact grows_andThen (grows_modifyWpt hb _ _) fun b' hb' =>
      grows_andThen (grows_modifyWpt hb' _ _) fun b'' hb'' => ih _ hb''

theorem grows_sgmtConstraint {b : Builder D} (hb : b.path.waypoints.length ≤ 2 ^ 63)
    (asserts : Bool) (i j : ℕ) (c : Constraint D) : Grows b (b.sgmtConstraint asserts i j c).1 := by
  unfold sgmtConstraint
  split
  · exact .refl hb
  · exact grows_andThen ((grows_newWpts hb j).trans
      (grows_modifyWpt (grows_newWpts hb j).bound _ _)) fun b' hb' => grows_sgmtLoop _ _ _ hb'

omit [Dbl D] in
theorem grows_recordAll {record : Constraint D → Builder D → Out D}
    (hr : ∀ c (b : Builder D), b.path.waypoints.length ≤ 2 ^ 63 → Grows b (record c b).1)
    (l : List (Res (Constraint D))) {b : Builder D} (hb : b.path.waypoints.length ≤ 2 ^ 63) :
    Grows b (recordAll record l b).1 := by
  induction l generalizing b with
  | nil => exact .refl hb
  | cons c l ih =>
    cases c with
    | error e => exact .refl hb
    | ok c => exact grows_andThen (hr c b hb) fun b' hb' => ih hb'

theorem grows_wptInitialGuessPoint {b : Builder D} (hb : b.path.waypoints.length ≤ 2 ^ 63) (i : ℕ)
    (p : Pose2 D) : Grows b (b.wptInitialGuessPoint i p).1 := by
  have h1 := grows_newWpts hb i
  unfold wptInitialGuessPoint
  dsimp only
  split
  · exact h1
  · exact h1
  · exact h1.trans (.same h1.bound rfl (by simp) rfl)

theorem grows_sgmtInitialGuessPoints {b : Builder D} (hb : b.path.waypoints.length ≤ 2 ^ 63)
    (i : ℕ) (ps : List (Pose2 D)) : Grows b (b.sgmtInitialGuessPoints i ps).1 := by
  have h1 := grows_newWpts hb (wadd i 1)
  unfold sgmtInitialGuessPoints
  dsimp only
  split
  · exact h1
  · exact h1.trans (.same h1.bound rfl (by simp) rfl)

theorem grows_exec {b : Builder D} (hb : b.path.waypoints.length ≤ 2 ^ 63) (asserts : Bool)
    (op : Op D) (hc : ∀ cs, op ≠ .controlIntervalCounts cs) : Grows b (op.exec asserts b).1 := by
  cases op with
  | setDrivetrain d => exact .same hb rfl rfl rfl
  | poseWpt i x y h =>
    exact grows_andThen (grows_wptConstraint hb i _) fun b' hb' =>
      grows_wptInitialGuessPoint hb' i _
  | translationWpt i x y h =>
    exact grows_andThen (grows_wptConstraint hb i _) fun b' hb' =>
      grows_wptInitialGuessPoint hb' i _
  | wptInitialGuessPoint i p => exact grows_wptInitialGuessPoint hb i p
  | sgmtInitialGuessPoints i ps => exact grows_sgmtInitialGuessPoints hb i ps
  | addBumpers o => exact .same hb rfl rfl rfl
  | wptObstacle i o => exact grows_recordAll (fun c b hb => grows_wptConstraint hb i c) _ hb
  | sgmtObstacle i j o =>
    exact grows_recordAll (fun c b hb => grows_sgmtConstraint hb asserts i j c) _ hb
  | wptConstraint i c => exact grows_wptConstraint hb i c
  | sgmtConstraint i j c => exact grows_sgmtConstraint hb asserts i j c
  | controlIntervalCounts cs => exact absurd rfl (hc cs)
  | addIntermediateCallback k => exact .same hb rfl rfl rfl

theorem grows_run {b : Builder D} (hb : b.path.waypoints.length ≤ 2 ^ 63) (asserts : Bool)
    (ops : List (Op D)) (hc : ∀ op ∈ ops, ∀ cs, op ≠ .controlIntervalCounts cs) :
    Grows b (run asserts ops b) := by
  induction ops generalizing b with
  | nil => exact .refl hb
  | cons op ops ih =>
    have h := grows_exec hb asserts op (hc op (by simp))
    exact h.trans (ih h.bound fun op h => hc op (by simp [h]))

theorem runActs_calls (asserts : Bool) (ops : List (Op D)) (b : Builder D) :
    runActs asserts (ops.map .call) b = run asserts ops b := by
  unfold run runActs
  rw [List.foldl_map]
  rfl

theorem runActs_append (asserts : Bool) (as as' : List (Act D)) (b : Builder D) :
    runActs asserts (as ++ as') b = runActs asserts as' (runActs asserts as b) :=
  List.foldl_append ..

end Trajopt
