import Verif.Lemmas.Exhaust
import Verif.Props.Visits

/-!
# C104 Calls that are refused memory
-/

set_option autoImplicit false

namespace Trajopt

open Spec Scarce

section

variable {D : Type} [Dbl D]

theorem Scarce.ends_exec (asserts : Bool) (op : Op D) (hc : ∀ cs, op ≠ .controlIntervalCounts cs) (s : Scarce D)
    (h : Fit s.builder) : Ends s.builder (op.execScarce asserts s) := by
  have plain : ∀ b r, b.path.waypoints = s.builder.path.waypoints → b.initialGuessPoints = s.builder.initialGuessPoints →
      b.controlIntervalCounts = s.builder.controlIntervalCounts → Ends s.builder (⟨b, r⟩, none) := by
    intro b r h1 h2 h3
    refine ⟨⟨?_, ?_⟩, ?_, ⟨0, Nat.zero_le _, ?_⟩, ⟨0, Nat.zero_le _, ?_⟩, ?_, ?_, ?_, by simp⟩ <;>
      simp only [table, h1, h2, h3, Nat.add_zero, le_refl, List.prefix_rfl, implies_true]
    · exact h.len
    · exact h.ne
  have hub : ∀ o bums, (.error .ub : Res (Constraint D)) ∉ Builder.obstacleConstraints asserts o bums :=
    fun o bums hm => Props.obstacleConstraints_not_ub asserts o bums _ hm rfl
  cases op with
  | setDrivetrain d => exact plain _ _ rfl rfl rfl
  | poseWpt i x y a => exact (ends_wptConstraint i _ s h).andThen fun s h => ends_wptInitialGuessPoint i _ s h
  | translationWpt i x y a => exact (ends_wptConstraint i _ s h).andThen fun s h => ends_wptInitialGuessPoint i _ s h
  | wptInitialGuessPoint i p => exact ends_wptInitialGuessPoint i p s h
  | sgmtInitialGuessPoints i ps => exact ends_sgmtInitialGuessPoints i ps s h
  | addBumpers o => exact ends_change h (plain _ _ rfl rfl rfl)
  | wptObstacle i o => exact ends_recordAll (fun c s h => ends_wptConstraint i c s h) _ (hub _ _) s h
  | sgmtObstacle i j o => exact ends_recordAll (fun c s h => ends_sgmtConstraint asserts i j c s h) _ (hub _ _) s h
  | wptConstraint i c => exact ends_wptConstraint i c s h
  | sgmtConstraint i j c => exact ends_sgmtConstraint asserts i j c s h
  | controlIntervalCounts cs => exact absurd rfl (hc cs)
  | addIntermediateCallback k => exact ends_change h (plain _ _ rfl rfl rfl)

/-- The same for every call, without the counts. -/
theorem Scarce.exec_fit (asserts : Bool) (op : Op D) (s : Scarce D) (h : Fit s.builder) :
    Fit (op.execScarce asserts s).1.builder ∧ (op.execScarce asserts s).2 ≠ some (.fault .ub) ∧
    (∃ k ≤ cost (op.execScarce asserts s).2, (op.execScarce asserts s).1.builder.path.waypoints.length +
      s.builder.initialGuessPoints.length = s.builder.path.waypoints.length +
        (op.execScarce asserts s).1.builder.initialGuessPoints.length + k) ∧
    s.builder.path.waypoints.length ≤ (op.execScarce asserts s).1.builder.path.waypoints.length ∧
    (∀ w, (table s.builder).instant w <+: (table (op.execScarce asserts s).1.builder).instant w) ∧
    (∀ w, (table s.builder).continuous w <+: (table (op.execScarce asserts s).1.builder).continuous w) := by
  by_cases hc : ∃ cs, op = .controlIntervalCounts cs
  · obtain ⟨cs, rfl⟩ := hc
    exact ⟨⟨h.len, h.ne⟩, by simp [Op.execScarce], ⟨0, Nat.zero_le _, rfl⟩, Nat.le_refl _, fun _ => List.prefix_rfl,
      fun _ => List.prefix_rfl⟩
  · have := ends_exec asserts op (fun cs e => hc ⟨cs, e⟩) s h
    exact ⟨this.fit, this.ub, this.guess, this.grow, this.instant, this.continuous⟩

omit [Dbl D] in
theorem Scarce.fit_new : Fit (Builder.new : Builder D) := ⟨by simp [Builder.new], by simp [Builder.new]⟩

theorem Scarce.run_fit (asserts : Bool) (ops : List (Op D)) (s : Scarce D) (h : Fit s.builder) :
    Fit (runScarce asserts ops s).1.builder ∧ some (.fault .ub) ∉ (runScarce asserts ops s).2 ∧
    (∃ k ≤ refusals (runScarce asserts ops s).2, (runScarce asserts ops s).1.builder.path.waypoints.length +
      s.builder.initialGuessPoints.length = s.builder.path.waypoints.length +
        (runScarce asserts ops s).1.builder.initialGuessPoints.length + k) := by
  induction ops generalizing s with
  | nil => exact ⟨h, by simp [runScarce], 0, Nat.zero_le _, rfl⟩
  | cons op ops ih =>
    obtain ⟨h1, h2, ⟨k, hk, h3⟩, -⟩ := exec_fit asserts op s h
    obtain ⟨i1, i2, k', hk', i3⟩ := ih _ h1
    refine ⟨i1, ?_, k + k', ?_, ?_⟩
    · simp only [runScarce, List.mem_cons, not_or]
      exact ⟨fun e => h2 e.symm, i2⟩
    · simp only [runScarce, refusals, List.count_cons, beq_iff_eq]
      simp only [cost] at hk
      simp only [refusals] at hk'
      omega
    · simp only [runScarce]
      omega

theorem Scarce.newWpts_known (s : Scarce D) (hl : s.builder.path.waypoints.length ≤ 2 ^ 63) (i : ℕ)
    (hi : i < s.builder.path.waypoints.length) : s.newWpts i = (s, none) := by
  have hg : toInt64 (wsub s.builder.path.waypoints.length 1) = (s.builder.path.waypoints.length : ℤ) - 1 := by
    unfold toInt64 wsub; split <;> omega
  have ht : toInt64 i = (i : ℤ) := by unfold toInt64; split <;> omega
  unfold newWpts
  simp only [hg, ht]
  rw [if_neg (by omega)]

namespace Props

/-- C104: a call that is not refused memory does what it does when there is enough of it. -/
theorem C104_granted (asserts : Bool) (op : Op D) (s : Scarce D)
    (h : (op.execScarce asserts s).2 ≠ some .badAlloc) :
    (op.execScarce asserts s).1.builder = (op.exec asserts s.builder).1 ∧
    (op.execScarce asserts s).2 = (op.exec asserts s.builder).2.map .fault :=
  (sim_exec asserts op s).resolve_left h

/-- C104: whatever calls are refused memory, none of them is undefined, waypoints have guesses except as many as there
were refusals, and no list of guesses is empty. -/
theorem C104_history (asserts : Bool) (ops : List (Op D)) (refused : List Bool) (s : Scarce D)
    (os : List (Option Stop)) (h : runScarce asserts ops ⟨.new, refused⟩ = (s, os)) :
    some (.fault .ub) ∉ os ∧
    s.builder.initialGuessPoints.length ≤ s.builder.path.waypoints.length ∧
    s.builder.path.waypoints.length ≤ s.builder.initialGuessPoints.length + refusals os ∧
    ∀ l ∈ s.builder.initialGuessPoints, l ≠ [] := by
  obtain ⟨h1, h2, k, hk, h3⟩ := run_fit asserts ops ⟨.new, refused⟩ fit_new
  rw [h] at h1 h2 hk h3
  dsimp only at hk h3
  simp only [Builder.new, List.length_nil] at h3
  exact ⟨h2, by omega, by omega, h1.ne⟩

/-- C104: nothing that has been recorded is lost. -/
theorem C104_kept (asserts : Bool) (ops : List (Op D)) (refused : List Bool) (op : Op D) :
    let s := (runScarce asserts ops ⟨.new, refused⟩).1
    let s' := (op.execScarce asserts s).1
    (table s.builder).waypoints ≤ (table s'.builder).waypoints ∧
    (∀ w, (table s.builder).instant w <+: (table s'.builder).instant w) ∧
    (∀ w, (table s.builder).continuous w <+: (table s'.builder).continuous w) ∧
    ((∀ cs, op ≠ .controlIntervalCounts cs) → (table s.builder).counts <+: (table s'.builder).counts) := by
  have hf := (run_fit asserts ops ⟨.new, refused⟩ fit_new).1
  obtain ⟨-, -, -, h1, h2, h3⟩ := exec_fit asserts op _ hf
  exact ⟨h1, h2, h3, fun hc => (ends_exec asserts op hc _ hf).kept⟩

/-- C104, what holds: a call that names only waypoints that exist and records at most one constraint leaves the builder
as it was if it is refused memory.  Missing: waypoints that come to exist, and calls that record several
constraints. -/
theorem C104_unchanged_partial (asserts : Bool) (ops : List (Op D)) (refused : List Bool) (op : Op D)
    (s : Scarce D) (hs : s = (runScarce asserts ops ⟨.new, refused⟩).1)
    (hk : Op.Known s.builder.path.waypoints.length op) (h1 : Op.Single op)
    (h : (op.execScarce asserts s).2 = some .badAlloc) :
    (op.execScarce asserts s).1.builder = s.builder := by
  have hl := (run_fit asserts ops ⟨.new, refused⟩ fit_new).1.len
  rw [← hs] at hl
  have hn := newWpts_known s hl
  have hch : ∀ f : Builder D → Builder D, (s.change f).2 = some .badAlloc → (s.change f).1.builder = s.builder := by
    intro f hf
    obtain ⟨r, e | e⟩ := s.change_cases f
    · rw [e] at hf; simp at hf
    · rw [e]
  have hw : ∀ i c, i < s.builder.path.waypoints.length → (∃ s', s.wptConstraint i c = (s', none) ∧
      s'.builder.path.waypoints.length = s.builder.path.waypoints.length ∧
      s'.builder.initialGuessPoints = s.builder.initialGuessPoints) ∨
      ∃ r, s.wptConstraint i c = (⟨s.builder, r⟩, some .badAlloc) := by
    intro i c hi
    rw [wptConstraint, hn i hi]
    simp only [andThen, pushAt, hi, if_true]
    obtain ⟨r, e | e⟩ := s.change_cases fun b =>
      { b with path := { b.path with waypoints := b.path.waypoints.modify i (Builder.pushWpt c) } }
    · exact .inl ⟨_, e, by simp, rfl⟩
    · exact .inr ⟨r, e⟩
  have hgp : ∀ (s' : Scarce D) i p, s'.builder.path.waypoints.length = s.builder.path.waypoints.length →
      i < s.builder.path.waypoints.length → (s'.wptInitialGuessPoint i p).2 ≠ some .badAlloc := by
    intro s' i p hl' hi
    have hn' := newWpts_known s' (by omega) i (by omega)
    rw [wptInitialGuessPoint, hn']
    simp only [andThen]
    rcases s'.builder.initialGuessPoints[i]? with _ | _ | ⟨p', ps⟩ <;> simp
  have hpose : ∀ i c p, i < s.builder.path.waypoints.length →
      (andThen (s.wptConstraint i c) fun s => s.wptInitialGuessPoint i p).2 = some .badAlloc →
      (andThen (s.wptConstraint i c) fun s => s.wptInitialGuessPoint i p).1.builder = s.builder := by
    intro i c p hi hb
    rcases hw i c hi with ⟨s', e, e1, -⟩ | ⟨r, e⟩
    · rw [e] at hb
      exact absurd hb (hgp s' i p e1 hi)
    · rw [e]; rfl
  cases op with
  | setDrivetrain d => simp [Op.execScarce] at h
  | poseWpt i x y a => exact hpose i _ _ hk h
  | translationWpt i x y a => exact hpose i _ _ hk h
  | wptInitialGuessPoint i p => exact absurd h (hgp s i p rfl hk)
  | sgmtInitialGuessPoints i ps =>
    have hk : i + 1 < s.builder.path.waypoints.length := hk
    have hwa : wadd i 1 = i + 1 := by unfold wadd; omega
    simp only [Op.execScarce, sgmtInitialGuessPoints, hwa, hn _ hk, andThen] at h ⊢
    revert h
    rcases s.builder.initialGuessPoints[i + 1]? with _ | qs
    · simp
    · exact hch _
  | addBumpers o => exact hch _ h
  | wptObstacle i o => exact h1.elim
  | sgmtObstacle i j o => exact h1.elim
  | wptConstraint i c =>
    rcases hw i c hk with ⟨s', e, -⟩ | ⟨r, e⟩
    · simp only [Op.execScarce, e] at h; simp at h
    · simp only [Op.execScarce, e]
  | sgmtConstraint i j c => exact h1.elim
  | controlIntervalCounts cs => simp [Op.execScarce] at h
  | addIntermediateCallback k => exact hch _ h

/-- The numbers of waypoints, guess lists and counts are the same. -/
structure Even (b : Builder D) (o : ScarceOut D) : Prop where
  waypoints : o.1.builder.path.waypoints.length = b.path.waypoints.length
  guess : o.1.builder.initialGuessPoints.length = b.initialGuessPoints.length
  counts : o.1.builder.controlIntervalCounts = b.controlIntervalCounts

omit [Dbl D] in
theorem Even.andThen {b : Builder D} {o : ScarceOut D} (h : Even b o) {f : Scarce D → ScarceOut D}
    (hf : ∀ s, s.builder.path.waypoints.length = b.path.waypoints.length → Even s.builder (f s)) :
    Even b (andThen o f) := by
  obtain ⟨s, e⟩ := o
  cases e with
  | none =>
    have := hf s h.waypoints
    exact ⟨this.1.trans h.1, this.2.trans h.2, this.3.trans h.3⟩
  | some e => exact h

omit [Dbl D] in
theorem even_change {f : Builder D → Builder D} {s : Scarce D}
    (hf : ∀ r, Even s.builder (⟨f s.builder, r⟩, none)) : Even s.builder (s.change f) := by
  obtain ⟨r, e | e⟩ := s.change_cases f <;> rw [e]
  · exact hf r
  · exact ⟨rfl, rfl, rfl⟩

omit [Dbl D] in
theorem even_pushAt (i : ℕ) (f : Waypoint D → Waypoint D) (s : Scarce D) : Even s.builder (s.pushAt i f) := by
  unfold pushAt
  split
  · exact even_change fun r => ⟨by simp, rfl, rfl⟩
  · exact ⟨rfl, rfl, rfl⟩

theorem even_wptConstraint (i : ℕ) (c : Constraint D) (s : Scarce D)
    (hl : s.builder.path.waypoints.length ≤ 2 ^ 63) (hi : i < s.builder.path.waypoints.length) :
    Even s.builder (s.wptConstraint i c) := by
  rw [wptConstraint, newWpts_known s hl i hi]
  exact even_pushAt i _ s

omit [Dbl D] in
theorem even_sgmtLoop (c : Constraint D) (n i : ℕ) (s : Scarce D) : Even s.builder (sgmtLoop c n i s) := by
  induction n generalizing i s with
  | zero => exact ⟨rfl, rfl, rfl⟩
  | succ n ih =>
    exact (even_pushAt i _ s).andThen fun s _ => (even_pushAt i _ s).andThen fun s _ => ih (i + 1) s

theorem even_sgmtConstraint (asserts : Bool) (i j : ℕ) (c : Constraint D) (s : Scarce D)
    (hl : s.builder.path.waypoints.length ≤ 2 ^ 63) (hj : j < s.builder.path.waypoints.length) :
    Even s.builder (s.sgmtConstraint asserts i j c) := by
  unfold sgmtConstraint
  split
  · exact ⟨rfl, rfl, rfl⟩
  · rw [newWpts_known s hl j hj]
    exact (even_pushAt i _ s).andThen fun s _ => even_sgmtLoop c _ _ s

theorem even_wptInitialGuessPoint (i : ℕ) (p : Pose2 D) (s : Scarce D)
    (hl : s.builder.path.waypoints.length ≤ 2 ^ 63) (hi : i < s.builder.path.waypoints.length) :
    Even s.builder (s.wptInitialGuessPoint i p) := by
  rw [wptInitialGuessPoint, newWpts_known s hl i hi]
  simp only [andThen]
  rcases s.builder.initialGuessPoints[i]? with _ | _ | ⟨p', ps⟩
  · exact ⟨rfl, rfl, rfl⟩
  · exact ⟨rfl, rfl, rfl⟩
  · exact ⟨rfl, by simp, rfl⟩

omit [Dbl D] in
theorem even_recordAll {record : Constraint D → Scarce D → ScarceOut D} {n : ℕ}
    (hr : ∀ c s, s.builder.path.waypoints.length = n → Even s.builder (record c s)) (l : List (Res (Constraint D)))
    (s : Scarce D) (hn : s.builder.path.waypoints.length = n) : Even s.builder (recordAll record l s) := by
  induction l generalizing s with
  | nil => exact ⟨rfl, rfl, rfl⟩
  | cons c l ih =>
    cases c with
    | error e => exact ⟨rfl, rfl, rfl⟩
    | ok c => exact (hr c s hn).andThen fun s h => ih s (h.trans hn)

/-- C104, what holds: as long as every waypoint that a call names exists, there remain a list of guesses for every
waypoint and a count for every segment, whatever is refused.  Missing: calls that add waypoints. -/
theorem C104_complete_partial (asserts : Bool) (ops : List (Op D)) (refused : List Bool) (op : Op D)
    (s : Scarce D) (hs : s = (runScarce asserts ops ⟨.new, refused⟩).1)
    (hk : Op.Known s.builder.path.waypoints.length op) (hc : ∀ cs, op ≠ .controlIntervalCounts cs)
    (h : Complete s.builder) : Complete (op.execScarce asserts s).1.builder := by
  have hl := (run_fit asserts ops ⟨.new, refused⟩ fit_new).1.len
  rw [← hs] at hl
  suffices he : Even s.builder (op.execScarce asserts s) from
    ⟨by rw [he.guess, he.waypoints, h.guess], by rw [he.counts, he.waypoints, h.counts]⟩
  cases op with
  | setDrivetrain d => exact ⟨rfl, rfl, rfl⟩
  | poseWpt i x y a =>
    exact (even_wptConstraint i _ s hl hk).andThen fun s' e =>
      even_wptInitialGuessPoint i _ s' (by omega) (by rw [e]; exact hk)
  | translationWpt i x y a =>
    exact (even_wptConstraint i _ s hl hk).andThen fun s' e =>
      even_wptInitialGuessPoint i _ s' (by omega) (by rw [e]; exact hk)
  | wptInitialGuessPoint i p => exact even_wptInitialGuessPoint i p s hl hk
  | sgmtInitialGuessPoints i ps =>
    have hk : i + 1 < s.builder.path.waypoints.length := hk
    have hwa : wadd i 1 = i + 1 := by unfold wadd; omega
    simp only [Op.execScarce, sgmtInitialGuessPoints, hwa, newWpts_known s hl _ hk, andThen]
    rcases s.builder.initialGuessPoints[i + 1]? with _ | qs
    · exact ⟨rfl, rfl, rfl⟩
    · exact even_change fun r => ⟨rfl, by simp, rfl⟩
  | addBumpers o => exact even_change fun r => ⟨rfl, rfl, rfl⟩
  | wptObstacle i o =>
    exact even_recordAll (fun c s' e => even_wptConstraint i c s' (by omega) (by rw [e]; exact hk)) _ s rfl
  | sgmtObstacle i j o =>
    exact even_recordAll (fun c s' e => even_sgmtConstraint asserts i j c s' (by omega) (by rw [e]; exact hk.2)) _ s rfl
  | wptConstraint i c => exact even_wptConstraint i c s hl hk
  | sgmtConstraint i j c => exact even_sgmtConstraint asserts i j c s hl hk.2
  | controlIntervalCounts cs => exact absurd rfl (hc cs)
  | addIntermediateCallback k => exact even_change fun r => ⟨rfl, rfl, rfl⟩

/-- C104: a waypoint without guesses stays without, whatever is called. -/
theorem C104_stuck (asserts : Bool) (ops ops' : List (Op D)) (refused : List Bool) (s s' : Scarce D)
    (os os' : List (Option Stop)) (h : runScarce asserts ops ⟨.new, refused⟩ = (s, os))
    (hm : s.builder.initialGuessPoints.length < s.builder.path.waypoints.length)
    (h' : runScarce asserts ops' s = (s', os')) :
    s'.builder.initialGuessPoints.length < s'.builder.path.waypoints.length ∧
    ∀ x y a, ((Op.poseWpt (s'.builder.path.waypoints.length - 1) x y a).execScarce asserts ⟨s'.builder, []⟩).2 =
      some (.fault .outOfRange) := by
  have hf := (run_fit asserts ops ⟨.new, refused⟩ fit_new).1
  rw [h] at hf
  obtain ⟨hf', -, k, -, e⟩ := run_fit asserts ops' s hf
  rw [h'] at hf' e
  have hlt : s'.builder.initialGuessPoints.length < s'.builder.path.waypoints.length := by
    dsimp only at e; omega
  refine ⟨hlt, fun x y a => ?_⟩
  generalize hi : s'.builder.path.waypoints.length - 1 = i
  have hl := hf'.len
  dsimp only at hl
  have hn : ∀ b : Builder D, b.path.waypoints.length = s'.builder.path.waypoints.length →
      (⟨b, []⟩ : Scarce D).newWpts i = (⟨b, []⟩, none) :=
    fun b hb => newWpts_known ⟨b, []⟩ (by dsimp only; omega) i (by dsimp only; omega)
  simp only [Op.execScarce, poseWpt, wptConstraint, hn _ rfl, andThen, pushAt]
  rw [if_pos (by omega)]
  simp only [change, request, andThen, wptInitialGuessPoint]
  rw [hn _ (by simp)]
  dsimp only
  rw [List.getElem?_eq_none (by omega)]

/-- Drive from one place to another; that the second waypoint is refused memory is noticed, and the call repeated. -/
def retryOps (x y a x' y' a' : D) : List (Op D) := [.poseWpt 0 x y a, .poseWpt 1 x' y' a', .poseWpt 1 x' y' a']

theorem first_wpt {b : Builder D} (hb : b.path.waypoints = []) (r : List Bool) :
    (⟨b, false :: false :: false :: r⟩ : Scarce D).newWpts 0 = (⟨emplaceGuess (emplaceWaypoint b), r⟩, none) := by
  have h1 : toInt64 0 = 0 := by unfold toInt64; split <;> omega
  have h2 : toInt64 (wsub 0 1) = -1 := by unfold toInt64 wsub; split <;> omega
  unfold newWpts
  dsimp only
  rw [hb, List.length_nil, h1, h2, if_pos (by decide), show ((0 : ℤ) - -1).toNat = 1 from rfl,
    show (-1 : ℤ) + 1 = 0 from rfl]
  rfl

theorem first_pose (dr : Option (SwerveDrivetrain D)) (cb : List ℕ) (bu : List (Obstacle D)) (x y a : D)
    (r : List Bool) : (Op.poseWpt 0 x y a).execScarce true
      (⟨⟨⟨[], dr, cb⟩, bu, [], []⟩, false :: false :: false :: false :: r⟩ : Scarce D) =
      (⟨⟨⟨[⟨[.mkPoseEquality x y a], []⟩], dr, cb⟩, bu, [[.ofXYHeading x y a]], []⟩, r⟩, none) := by
  simp only [Op.execScarce, poseWpt, wptConstraint]
  rw [first_wpt rfl]
  simp only [andThen, emplaceGuess, emplaceWaypoint, pushAt, change, request, wptInitialGuessPoint]
  simp only [List.nil_append, List.length_singleton, Nat.zero_lt_one, if_true, Bool.false_eq_true, if_false]
  rw [newWpts_known _ (by simp) _ (by simp)]
  rfl

theorem second_wpt {b : Builder D} (hb : b.path.waypoints.length = 1) (r : List Bool) :
    (⟨b, false :: false :: false :: true :: r⟩ : Scarce D).newWpts 1 =
      (⟨emplaceGuess (emplaceWaypoint b), r⟩, some .badAlloc) := by
  have h1 : toInt64 1 = 1 := by unfold toInt64; split <;> omega
  have h2 : toInt64 (wsub 1 1) = 0 := by unfold toInt64 wsub; split <;> omega
  unfold newWpts
  dsimp only
  rw [hb, h1, h2, if_pos (by decide), show ((1 : ℤ) - 0).toNat = 1 from rfl,
    show (0 : ℤ) + 1 = 1 from rfl]
  rfl

theorem pose_known (b : Builder D) (hl : b.path.waypoints.length ≤ 2 ^ 63) (i : ℕ) (hi : i < b.path.waypoints.length)
    (p : Pose2 D) (ps : List (Pose2 D)) (hg : b.initialGuessPoints[i]? = some (p :: ps)) (x y a : D) :
    (⟨b, []⟩ : Scarce D).poseWpt i x y a =
      (⟨{ b with
          path := { b.path with waypoints := b.path.waypoints.modify i (Builder.pushWpt (.mkPoseEquality x y a)) }
          initialGuessPoints := b.initialGuessPoints.set i ((p :: ps).dropLast ++ [.ofXYHeading x y a]) }, []⟩,
        none) := by
  simp only [poseWpt, wptConstraint, newWpts_known ⟨b, []⟩ hl i hi, andThen, pushAt]
  rw [if_pos hi]
  simp only [change, request, andThen, wptInitialGuessPoint]
  rw [newWpts_known _ (by simpa using hl) _ (by simpa using hi)]
  dsimp only
  rw [hg]

theorem retry_run (b : Builder D) (hb : b.path.waypoints = []) (hg : b.initialGuessPoints = [])
    (hc : b.controlIntervalCounts = []) (x y a x' y' a' : D) :
    runScarce true (retryOps x y a x' y' a') ⟨b, [false, false, false, false, false, false, false, true]⟩ =
      (⟨run true [.poseWpt 0 x y a, .poseWpt 1 x' y' a', .controlIntervalCounts []] b, []⟩,
        [none, some .badAlloc, none]) := by
  obtain ⟨⟨w, dr, cb⟩, bu, g, c⟩ := b
  dsimp only at hb hg hc
  subst hb hg hc
  set c₀ : Constraint D := .mkPoseEquality x y a with hc₀
  set c₁ : Constraint D := .mkPoseEquality x' y' a' with hc₁
  set p₀ : Pose2 D := .ofXYHeading x y a with hp₀
  set p₁ : Pose2 D := .ofXYHeading x' y' a' with hp₁
  have e1 : ∀ r, (Op.poseWpt 0 x y a).execScarce true
      (⟨⟨⟨[], dr, cb⟩, bu, [], []⟩, false :: false :: false :: false :: r⟩ : Scarce D) =
      (⟨⟨⟨[⟨[c₀], []⟩], dr, cb⟩, bu, [[p₀]], []⟩, r⟩, none) := first_pose dr cb bu x y a
  have e2 : (Op.poseWpt 1 x' y' a').execScarce true
      (⟨⟨⟨[⟨[c₀], []⟩], dr, cb⟩, bu, [[p₀]], []⟩, [false, false, false, true]⟩ : Scarce D) =
      (⟨⟨⟨[⟨[c₀], []⟩, {}], dr, cb⟩, bu, [[p₀], [originPose]], []⟩, []⟩, some .badAlloc) := by
    simp only [Op.execScarce, poseWpt, wptConstraint]
    rw [second_wpt rfl]
    rfl
  have e3 : ∀ cs, (Op.poseWpt 1 x' y' a').execScarce true
      (⟨⟨⟨[⟨[c₀], []⟩, {}], dr, cb⟩, bu, [[p₀], [originPose]], cs⟩, []⟩ : Scarce D) =
      (⟨⟨⟨[⟨[c₀], []⟩, ⟨[c₁], []⟩], dr, cb⟩, bu, [[p₀], [p₁]], cs⟩, []⟩, none) := by
    intro cs
    exact pose_known ⟨⟨[⟨[c₀], []⟩, {}], dr, cb⟩, bu, [[p₀], [originPose]], cs⟩ (by simp) 1 (by simp) _ _ rfl _ _ _
  have f1 := C104_granted true (.poseWpt 0 x y a) (⟨⟨⟨[], dr, cb⟩, bu, [], []⟩, [false, false, false, false]⟩ : Scarce D)
    (by rw [e1]; simp)
  rw [e1] at f1
  have f2 : ((Op.poseWpt 1 x' y' a').exec true (⟨⟨[⟨[c₀], []⟩], dr, cb⟩, bu, [[p₀]], []⟩ : Builder D)).1 =
      ⟨⟨[⟨[c₀], []⟩, ⟨[c₁], []⟩], dr, cb⟩, bu, [[p₀], [p₁]], [40]⟩ := by
    simp only [Op.exec, Builder.poseWpt, Builder.wptConstraint, Builder.modifyWpt]
    rw [Builder.newWpts_eq (by simp) (by norm_num), if_pos (by simp [Builder.grow])]
    simp only [Builder.andThen, Builder.wptInitialGuessPoint]
    rw [Builder.newWpts_eq (by simp [Builder.grow]) (by norm_num)]
    rfl
  simp only [retryOps, runScarce, run, List.foldl_cons, List.foldl_nil]
  rw [e1, ← f1.1, f2]
  dsimp only
  rw [e2]
  dsimp only
  rw [e3]
  rfl

/-- C104 is false as stated, also if all waypoints exist: a constraint for a segment is recorded for a part of it, in
any path with such a segment. -/
theorem C104_refuted_segment (asserts : Bool) (ops : List (Op D)) (refused : List Bool) (c : Constraint D)
    (b : Builder D) (hb : b = (runScarce asserts ops ⟨.new, refused⟩).1.builder) (hw : 2 ≤ b.path.waypoints.length) :
    ∃ s', (Op.sgmtConstraint 0 1 c).execScarce asserts ⟨b, [false, true]⟩ = (s', some .badAlloc) ∧
    (table s'.builder).instant 0 = (table b).instant 0 ++ [c] ∧
    (table s'.builder).instant 1 = (table b).instant 1 ∧
    (table s'.builder).continuous 0 = (table b).continuous 0 := by
  have hl := (run_fit asserts ops ⟨.new, refused⟩ fit_new).1.len
  rw [← hb] at hl
  simp only [Op.execScarce, sgmtConstraint, newWpts_known ⟨b, [false, true]⟩ hl 1 hw]
  rw [if_neg (by simp)]
  simp only [andThen]
  rw [pushAt, if_pos (by dsimp only; omega)]
  simp only [change, request, andThen, Bool.false_eq_true, if_false]
  rw [show 1 - 0 = 0 + 1 from rfl, sgmtLoop, pushAt, if_pos (by simp; omega)]
  refine ⟨_, rfl, ?_, ?_, ?_⟩
  · simp only [table, List.getD_eq_getElem?_getD, List.getElem?_modify_eq]
    rw [List.getElem?_eq_getElem (by omega)]
    rfl
  · simp only [table, List.getD_eq_getElem?_getD, List.getElem?_modify]
    simp
  · simp only [table, List.getD_eq_getElem?_getD, List.getElem?_modify]
    simp

/-- C104, non-vacuity: a call that is refused memory and leaves the builder as it was. -/
example (c : Constraint D) (x y a : D) :
    let s := (runScarce true [.poseWpt 0 x y a] ⟨.new, [false, false, false, false, true]⟩).1
    Op.Known s.builder.path.waypoints.length (.wptConstraint 0 c) ∧ Op.Single (.wptConstraint 0 c) ∧
    ((Op.wptConstraint 0 c).execScarce true s).2 = some .badAlloc := by
  obtain ⟨b, e, hb⟩ : ∃ b, (runScarce true [.poseWpt 0 x y a] (⟨.new, [false, false, false, false, true]⟩ : Scarce D)).1 =
      ⟨b, [true]⟩ ∧ b.path.waypoints.length = 1 := by
    simp only [runScarce, Builder.new]
    rw [first_pose]
    exact ⟨_, rfl, rfl⟩
  rw [e]
  refine ⟨?_, trivial, ?_⟩
  · change 0 < b.path.waypoints.length
    omega
  · simp only [Op.execScarce, wptConstraint]
    rw [newWpts_known _ (by dsimp only; omega) _ (by dsimp only; omega)]
    simp only [andThen]
    rw [pushAt, if_pos (by dsimp only; omega)]
    rfl

/-- C104, non-vacuity: the first waypoint has no guesses if it was refused memory for them. -/
example (x y a : D) : ∃ s, runScarce true [.poseWpt 0 x y a] ⟨.new, [false, true]⟩ = (s, [some .badAlloc]) ∧
    s.builder.initialGuessPoints.length < s.builder.path.waypoints.length := by
  have h1 : toInt64 0 = 0 := by unfold toInt64; split <;> omega
  have h2 : toInt64 (wsub 0 1) = -1 := by unfold toInt64 wsub; split <;> omega
  have h : (⟨.new, [false, true]⟩ : Scarce D).newWpts 0 = (⟨emplaceWaypoint .new, []⟩, some .badAlloc) := by
    unfold newWpts
    dsimp only
    rw [show (Builder.new : Builder D).path.waypoints = [] from rfl, List.length_nil, h1, h2, if_pos (by decide),
      show ((0 : ℤ) - -1).toNat = 1 from rfl, show (-1 : ℤ) + 1 = 0 from rfl]
    rfl
  simp only [runScarce, Op.execScarce, poseWpt, wptConstraint, h, andThen]
  exact ⟨_, rfl, by simp [emplaceWaypoint, Builder.new]⟩

end Props

end

namespace Props

/-- C104 is false as stated: a call is refused memory, it is made again and succeeds, and then the path can be driven without
going to the second waypoint.  (The count for its segment is missing.) -/
theorem C104_refuted : ∃ (before : List (Op ℝ)) (op : Op ℝ) (refused : List Bool) (s : Scarce ℝ),
    runScarce true (before ++ [op, op]) ⟨.new, refused⟩ = (s, before.map (fun _ => none) ++ [some .badAlloc, none]) ∧
    (table s.builder).waypoints = 2 ∧ .poseEquality 1 0 0 ∈ (table s.builder).instant 1 ∧
    (∃ T, Solves s.builder shippedRobot T) ∧
    ∀ T, Solves s.builder shippedRobot T → ∀ n < sampleCount (table s.builder).counts, (T.state n).pos = 0 := by
  obtain ⟨b, e, -, h⟩ := uncounted
  refine ⟨[.setDrivetrain shippedRobot, .poseWpt 0 0 0 0], .poseWpt 1 1 0 0,
    [false, false, false, false, false, false, false, true], ⟨b, []⟩, ?_, h⟩
  have hr := retry_run (Builder.new.setDrivetrain shippedRobot) rfl rfl rfl 0 0 0 1 0 0
  have hb : run true [.poseWpt 0 0 0 0, .poseWpt 1 1 0 0, .controlIntervalCounts []]
      (Builder.new.setDrivetrain shippedRobot) = b := by
    rw [e, uncountedOps, run, run, List.foldl_cons (b := Builder.new)]
    simp only [Op.exec]
  rw [hb] at hr
  have hs : ∀ ops, runScarce true (.setDrivetrain shippedRobot :: ops)
      ⟨.new, [false, false, false, false, false, false, false, true]⟩ =
      ((runScarce true ops ⟨Builder.new.setDrivetrain shippedRobot,
          [false, false, false, false, false, false, false, true]⟩).1,
        none :: (runScarce true ops ⟨Builder.new.setDrivetrain shippedRobot,
          [false, false, false, false, false, false, false, true]⟩).2) := fun _ => rfl
  rw [List.cons_append, hs]
  change (_, none :: (runScarce true (retryOps 0 0 0 1 0 0) _).2) = _
  rw [show ([.poseWpt 0 0 0 0] ++ [.poseWpt 1 1 0 0, .poseWpt 1 1 0 0] : List (Op ℝ)) = retryOps 0 0 0 1 0 0 from rfl,
    hr]
  rfl

end Props

end Trajopt
