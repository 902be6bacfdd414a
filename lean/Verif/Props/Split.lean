import Verif.Props.Reach
import Verif.Spec.Split

/-!
# C72 Cutting a path at a waypoint, and joining two paths
-/

set_option autoImplicit false

namespace Trajopt.Props

open Spec Builder

/-! ### Layout -/

theorem waypointSample_take {N : List ℕ} {K w : ℕ} (h : w ≤ K) :
    waypointSample (N.take K) w = waypointSample N w := by
  rw [waypointSample, List.take_take, Nat.min_eq_left h, waypointSample]

theorem waypointSample_drop (N : List ℕ) (K w : ℕ) :
    waypointSample N (K + w) = waypointSample N K + waypointSample (N.drop K) w := by
  simp only [waypointSample, List.take_add, List.sum_append]

theorem sampleCount_take (N : List ℕ) (K : ℕ) :
    sampleCount (N.take K) = waypointSample N K + 1 := by
  rw [sampleCount, waypointSample]; omega

theorem sampleCount_drop (N : List ℕ) (K : ℕ) :
    sampleCount N = waypointSample N K + sampleCount (N.drop K) := by
  have := congrArg List.sum (List.take_append_drop K N)
  rw [List.sum_append] at this
  rw [sampleCount, sampleCount, waypointSample]; omega

theorem segmentSamples_take {N : List ℕ} {K s : ℕ} (h : s < K) :
    segmentSamples (N.take K) s = segmentSamples N s := by
  rw [segmentSamples, waypointSample_take (by omega), waypointSample_take (by omega), segmentSamples]

theorem mem_segmentSamples_drop {N : List ℕ} {K s n : ℕ} :
    n ∈ segmentSamples (N.drop K) s ↔ waypointSample N K + n ∈ segmentSamples N (K + s) := by
  have h := waypointSample_drop N K s
  have h' := waypointSample_drop N K (s + 1)
  rw [segmentSamples, segmentSamples, Finset.mem_Ioc, Finset.mem_Ioc, Nat.add_assoc K s 1]
  omega

theorem waypointSample_mono (N : List ℕ) {w w' : ℕ} (h : w ≤ w') :
    waypointSample N w ≤ waypointSample N w' := by
  obtain ⟨k, rfl⟩ := Nat.exists_eq_add_of_le h
  rw [waypointSample_drop]; omega

theorem timeTaken_eq (N : List ℕ) (T : Traj) :
    timeTaken N T = duration N T 0 (sampleCount N - 1) := by
  rw [C66_total, timeTaken, Finset.sum_range]
  refine Finset.sum_congr rfl fun s _ => ?_
  simp

/-! ### Cutting -/

theorem obeys_cut {K : ℕ} {t t₁ t₂ : PathTable ℝ} {dr : SwerveDrivetrain ℝ} {T : Traj}
    (hc : CutAt K t t₁ t₂) (h : Obeys t dr T) :
    Obeys t₁ dr T ∧ Obeys t₂ dr (T.from (waypointSample t.counts K) K) := by
  have hK := hc.le
  have hl₁ : t₁.counts.length = K := by rw [hc.counts₁, List.length_take]; omega
  have hl₂ : t₂.counts.length = t.counts.length - K := by rw [hc.counts₂, List.length_drop]
  have hsplit := sampleCount_drop t.counts K
  have hpos : 0 < sampleCount (t.counts.drop K) := by rw [sampleCount]; omega
  constructor
  · constructor
    · intro s hs n hn
      rw [hc.counts₁, segmentSamples_take (by omega)] at hn
      exact h.interval s (by omega) n hn
    · intro n hn
      rw [hc.counts₁, sampleCount_take] at hn
      exact h.dynamics n (by omega)
    · exact fun s hs => h.time s (by omega)
    · exact fun s hs => h.stepCap s (by omega)
    · intro w hw c hcw
      rw [hc.counts₁, waypointSample_take (by omega)]
      exact h.instant w (by omega) c ((hc.instant₁ w (by omega) c).mp hcw)
    · intro s hs c hcs n hn
      rw [hc.counts₁, segmentSamples_take (by omega)] at hn
      exact h.continuous s (by omega) c ((hc.continuous₁ s (by omega) c).mp hcs) n hn
  · constructor
    · intro s hs n hn
      rw [hc.counts₂] at hn
      have hn0 : 0 < n := by rw [segmentSamples, Finset.mem_Ioc] at hn; omega
      have := h.interval (K + s) (by omega) _ (mem_segmentSamples_drop.mp hn)
      rwa [Nat.add_sub_assoc hn0] at this
    · intro n hn
      rw [hc.counts₂] at hn
      exact h.dynamics _ (by omega)
    · exact fun s hs => h.time (K + s) (by omega)
    · exact fun s hs => h.stepCap (K + s) (by omega)
    · intro w hw c hcw
      rw [hc.counts₂]
      have := h.instant (K + w) (by omega) c ((hc.instant₂ w (by omega) c).mp hcw)
      rwa [waypointSample_drop] at this
    · intro s hs c hcs n hn
      rw [hc.counts₂] at hn
      exact h.continuous (K + s) (by omega) c ((hc.continuous₂ s (by omega) c).mp hcs) _
        (mem_segmentSamples_drop.mp hn)

/-! ### Joining -/

theorem obeys_join {K : ℕ} {t t₁ t₂ : PathTable ℝ} {dr : SwerveDrivetrain ℝ} {T₁ T₂ : Traj}
    (hc : CutAt K t t₁ t₂) (h₁ : Obeys t₁ dr T₁) (h₂ : Obeys t₂ dr T₂)
    (hj : T₁.state (waypointSample t.counts K) = T₂.state 0) :
    Obeys t dr (Traj.join (waypointSample t.counts K) K T₁ T₂) := by
  have hK := hc.le
  have hl₁ : t₁.counts.length = K := by rw [hc.counts₁, List.length_take]; omega
  have hl₂ : t₂.counts.length = t.counts.length - K := by rw [hc.counts₂, List.length_drop]
  have hsplit := sampleCount_drop t.counts K
  have hstate : ∀ n, waypointSample t.counts K ≤ n →
      (Traj.join (waypointSample t.counts K) K T₁ T₂).state n =
        T₂.state (n - waypointSample t.counts K) := by
    intro n hn
    simp only [Traj.join]
    split
    · rw [show n = waypointSample t.counts K by omega, hj, Nat.sub_self]
    · rfl
  have hstate' : ∀ n, n ≤ waypointSample t.counts K →
      (Traj.join (waypointSample t.counts K) K T₁ T₂).state n = T₁.state n := by
    intro n hn
    simp only [Traj.join, hn, if_true]
  have seg₁ : ∀ s < K, ∀ n ∈ segmentSamples t.counts s, n ∈ segmentSamples t₁.counts s ∧
      n ≤ waypointSample t.counts K := by
    intro s hs n hn
    refine ⟨by rwa [hc.counts₁, segmentSamples_take hs], ?_⟩
    rw [segmentSamples, Finset.mem_Ioc] at hn
    exact hn.2.trans (waypointSample_mono _ hs)
  have seg₂ : ∀ s, K ≤ s → ∀ n ∈ segmentSamples t.counts s,
      n - waypointSample t.counts K ∈ segmentSamples t₂.counts (s - K) ∧
      waypointSample t.counts K < n := by
    intro s hs n hn
    have hlt : waypointSample t.counts K < n := by
      rw [segmentSamples, Finset.mem_Ioc] at hn
      exact (waypointSample_mono _ hs).trans_lt hn.1
    refine ⟨?_, hlt⟩
    rw [hc.counts₂, mem_segmentSamples_drop]
    rwa [Nat.add_sub_cancel' hs, Nat.add_sub_cancel' hlt.le]
  constructor
  · intro s hs n hn
    by_cases hsK : s < K
    · obtain ⟨hn', hle⟩ := seg₁ s hsK n hn
      rw [hstate' n hle, hstate' (n - 1) (by omega)]
      simp only [Traj.join, hsK, if_true]
      exact h₁.interval s (by omega) n hn'
    · obtain ⟨hn', hlt⟩ := seg₂ s (by omega) n hn
      rw [hstate n hlt.le, hstate (n - 1) (by omega)]
      simp only [Traj.join, hsK, if_false]
      have := h₂.interval (s - K) (by omega) _ hn'
      rwa [show n - waypointSample t.counts K - 1 = n - 1 - waypointSample t.counts K by omega]
        at this
  · intro n hn
    by_cases hle : n ≤ waypointSample t.counts K
    · simp only [Traj.join, hle, if_true]
      exact h₁.dynamics n (by rw [hc.counts₁, sampleCount_take]; omega)
    · simp only [Traj.join, hle, if_false]
      exact h₂.dynamics _ (by rw [hc.counts₂]; omega)
  · intro s hs
    by_cases hsK : s < K
    · simp only [Traj.join, hsK, if_true]; exact h₁.time s (by omega)
    · simp only [Traj.join, hsK, if_false]; exact h₂.time (s - K) (by omega)
  · intro s hs
    by_cases hsK : s < K
    · simp only [Traj.join, hsK, if_true]; exact h₁.stepCap s (by omega)
    · simp only [Traj.join, hsK, if_false]; exact h₂.stepCap (s - K) (by omega)
  · intro w hw c hcw
    by_cases hwK : w ≤ K
    · rw [hstate' _ (waypointSample_mono _ hwK)]
      have := h₁.instant w (by omega) c ((hc.instant₁ w hwK c).mpr hcw)
      rwa [hc.counts₁, waypointSample_take hwK] at this
    · obtain ⟨v, rfl⟩ := Nat.exists_eq_add_of_le (Nat.le_of_lt (Nat.lt_of_not_le hwK))
      rw [hstate _ (waypointSample_mono _ (by omega))]
      have := h₂.instant v (by omega) c ((hc.instant₂ v hw c).mpr hcw)
      rwa [hc.counts₂, ← Nat.add_sub_cancel_left (n := waypointSample t.counts K)
        (m := waypointSample _ v), ← waypointSample_drop] at this
  · intro s hs c hcs n hn
    by_cases hsK : s < K
    · obtain ⟨hn', hle⟩ := seg₁ s hsK n hn
      rw [hstate' n hle]
      exact h₁.continuous s (by omega) c ((hc.continuous₁ s hsK c).mpr hcs) n hn'
    · obtain ⟨hn', hlt⟩ := seg₂ s (by omega) n hn
      rw [hstate n hlt.le]
      refine h₂.continuous (s - K) (by omega) c ((hc.continuous₂ (s - K) (by omega) c).mpr ?_) _ hn'
      rwa [Nat.add_sub_cancel' (by omega)]

/-! ### Durations -/

theorem timeTaken_cut (N : List ℕ) {K : ℕ} (hK : K ≤ N.length) (T : Traj) :
    timeTaken N T = timeTaken (N.take K) T +
      timeTaken (N.drop K) (T.from (waypointSample N K) K) := by
  rw [timeTaken, timeTaken, timeTaken, List.length_take, List.length_drop, Nat.min_eq_left hK,
    ← Finset.sum_range_add_sum_Ico _ hK, Finset.sum_Ico_eq_sum_range]
  congr 1
  · refine Finset.sum_congr rfl fun s hs => ?_
    have := Finset.mem_range.mp hs
    simp [List.getD_eq_getElem?_getD, this]
  · refine Finset.sum_congr rfl fun s hs => ?_
    simp [List.getD_eq_getElem?_getD, List.getElem?_drop, Traj.from]

theorem timeTaken_join (N : List ℕ) {K : ℕ} (hK : K ≤ N.length) (S : ℕ) (T₁ T₂ : Traj) :
    timeTaken N (Traj.join S K T₁ T₂) = timeTaken (N.take K) T₁ + timeTaken (N.drop K) T₂ := by
  rw [timeTaken, timeTaken, timeTaken, List.length_take, List.length_drop, Nat.min_eq_left hK,
    ← Finset.sum_range_add_sum_Ico _ hK, Finset.sum_Ico_eq_sum_range]
  congr 1
  · refine Finset.sum_congr rfl fun s hs => ?_
    have := Finset.mem_range.mp hs
    simp [List.getD_eq_getElem?_getD, this, Traj.join]
  · refine Finset.sum_congr rfl fun s hs => ?_
    simp [List.getD_eq_getElem?_getD, List.getElem?_drop, Traj.join]

/-! ### Constraints along a segment hold at its ends -/

section AnyScalar
variable {D : Type} [Dbl D]

/-- Every constraint along a segment is also required at both ends of the segment. -/
def Ends (t : PathTable D) : Prop :=
  ∀ s, ∀ c ∈ t.continuous s, c ∈ t.instant s ∧ c ∈ t.instant (s + 1)

/-- What every builder satisfies. -/
structure Good (b : Builder D) : Prop where
  wf : WF b
  ends : Ends (table b)

theorem Good.step {q : Prop} {b b' : Builder D} (h : Good b) (hs : Step q b b')
    (hc : ∀ s, (table b').continuous s = (table b).continuous s) : Good b' :=
  ⟨hs.wf, fun s c hcs => by
    rw [hc] at hcs
    exact ⟨(hs.instant s).subset (h.ends s c hcs).1, (hs.instant (s + 1)).subset (h.ends s c hcs).2⟩⟩

theorem good_newWpts {b : Builder D} (h : Good b) (k : ℕ) : Good (b.newWpts k) := by
  refine h.step (step_newWpts (q := True) h.wf k) fun s => ?_
  obtain ⟨n, m, e, -, -⟩ := newWpts_grow h.wf.len k
  rw [e, table_grow]

theorem good_pushWpt {b : Builder D} (h : Good b) (i : ℕ) (c : Constraint D) :
    Good (b.modifyWpt i (pushWpt c)).1 := by
  refine h.step (step_pushWpt (q := True) h.wf i c) fun s => ?_
  by_cases hi : i < b.path.waypoints.length
  · obtain ⟨b', e, ht⟩ := table_pushWpt hi c
    rw [e, ht]; rfl
  · rw [modifyWpt_eq, if_neg hi]

theorem mem_pushWpt {b b' : Builder D} {i : ℕ} {c : Constraint D}
    (h : b.modifyWpt i (pushWpt c) = (b', none)) : c ∈ (table b').instant i := by
  by_cases hi : i < b.path.waypoints.length
  · obtain ⟨b'', e, ht⟩ := table_pushWpt hi c
    rw [e] at h
    cases h
    rw [ht]
    simp [PathTable.requireAt]
  · rw [modifyWpt_eq, if_neg hi] at h
    simp at h

theorem good_pushSgmt {b : Builder D} (h : Good b) {i : ℕ} {c : Constraint D}
    (h0 : c ∈ (table b).instant i) (h1 : c ∈ (table b).instant (i + 1)) :
    Good (b.modifyWpt (i + 1) (pushSgmt c)).1 := by
  have hs := step_pushSgmt (q := True) h.wf (i := i + 1) (by omega) c
  refine ⟨hs.wf, fun s k hk => ?_⟩
  have hor : k ∈ (table b).continuous s ∨ s = i ∧ k = c := by
    rw [modifyWpt_eq] at hk
    split at hk
    · simp only [table, withWpts, List.getD_eq_getElem?_getD, List.getElem?_mapIdx] at hk ⊢
      cases hx : b.path.waypoints[s + 1]? with
      | none => rw [hx] at hk; simp at hk
      | some x =>
        rw [hx] at hk
        simp only [Option.map_some, Option.getD_some] at hk ⊢
        split at hk
        · simp only [pushSgmt, List.mem_append, List.mem_singleton] at hk
          rcases hk with hk | hk
          · exact .inl hk
          · exact .inr ⟨by omega, hk⟩
        · exact .inl hk
    · exact .inl hk
  rcases hor with hk | ⟨rfl, rfl⟩
  · exact ⟨(hs.instant s).subset (h.ends s k hk).1, (hs.instant (s + 1)).subset (h.ends s k hk).2⟩
  · exact ⟨(hs.instant s).subset h0, (hs.instant (s + 1)).subset h1⟩

theorem good_andThen {o : Out D} {f : Builder D → Out D} (h : Good o.1)
    (hf : ∀ b', o = (b', none) → Good b' → Good (f b').1) : Good (andThen o f).1 := by
  obtain ⟨b', e⟩ := o
  cases e with
  | none => exact hf b' rfl h
  | some e => exact h

theorem good_sgmtLoop (c : Constraint D) (n i : ℕ) {b : Builder D} (h : Good b)
    (h0 : c ∈ (table b).instant i) : Good (sgmtLoop c n (i + 1) b).1 := by
  induction n generalizing i b with
  | zero => exact h
  | succ n ih =>
    refine good_andThen (good_pushWpt h _ c) fun b' e hb' => ?_
    have hs := step_pushWpt (q := True) h.wf (i + 1) c
    rw [e] at hs
    have h1 := mem_pushWpt e
    have h0' := (hs.instant i).subset h0
    refine good_andThen (good_pushSgmt hb' h0' h1) fun b'' e' hb'' => ?_
    have hs' := step_pushSgmt (q := True) hb'.wf (i := i + 1) (by omega) c
    rw [e'] at hs'
    exact ih (i + 1) hb'' ((hs'.instant (i + 1)).subset h1)

theorem good_wptConstraint {b : Builder D} (h : Good b) (i : ℕ) (c : Constraint D) :
    Good (b.wptConstraint i c).1 := good_pushWpt (good_newWpts h i) i c

theorem good_sgmtConstraint {b : Builder D} (h : Good b) (asserts : Bool) (i j : ℕ)
    (c : Constraint D) : Good (b.sgmtConstraint asserts i j c).1 := by
  unfold sgmtConstraint
  split
  · exact h
  · exact good_andThen (good_pushWpt (good_newWpts h j) i c) fun b' e hb' =>
      good_sgmtLoop c _ i hb' (mem_pushWpt e)

theorem good_recordAll {record : Constraint D → Builder D → Out D}
    (hr : ∀ c b, Good b → Good (record c b).1) (l : List (Res (Constraint D))) {b : Builder D}
    (h : Good b) : Good (recordAll record l b).1 := by
  induction l generalizing b with
  | nil => exact h
  | cons c l ih =>
    cases c with
    | error e => exact h
    | ok c => exact good_andThen (hr c b h) fun b' _ hb' => ih hb'

theorem good_wptInitialGuessPoint {b : Builder D} (h : Good b) (i : ℕ) (p : Pose2 D) :
    Good (b.wptInitialGuessPoint i p).1 := by
  refine ⟨(step_wptInitialGuessPoint (q := True) h.wf i p).wf, ?_⟩
  have h1 := (good_newWpts h i).ends
  unfold wptInitialGuessPoint
  dsimp only
  split <;> exact h1

theorem good_exec {b : Builder D} (h : Good b) (asserts : Bool) (op : Op D) :
    Good (op.exec asserts b).1 := by
  cases op with
  | setDrivetrain d => exact ⟨wf_exec h.wf asserts (.setDrivetrain d), h.ends⟩
  | poseWpt i x y a =>
    exact good_andThen (good_wptConstraint h i _) fun b' _ hb' => good_wptInitialGuessPoint hb' i _
  | translationWpt i x y a =>
    exact good_andThen (good_wptConstraint h i _) fun b' _ hb' => good_wptInitialGuessPoint hb' i _
  | wptInitialGuessPoint i p => exact good_wptInitialGuessPoint h i p
  | sgmtInitialGuessPoints i ps =>
    refine ⟨wf_exec h.wf asserts (.sgmtInitialGuessPoints i ps), ?_⟩
    have h1 := (good_newWpts h (wadd i 1)).ends
    simp only [Op.exec, sgmtInitialGuessPoints]
    split <;> exact h1
  | addBumpers o => exact ⟨wf_exec h.wf asserts (.addBumpers o), h.ends⟩
  | wptObstacle i o => exact good_recordAll (fun c b hb => good_wptConstraint hb i c) _ h
  | sgmtObstacle i j o =>
    exact good_recordAll (fun c b hb => good_sgmtConstraint hb asserts i j c) _ h
  | wptConstraint i c => exact good_wptConstraint h i c
  | sgmtConstraint i j c => exact good_sgmtConstraint h asserts i j c
  | controlIntervalCounts cs => exact ⟨wf_exec h.wf asserts (.controlIntervalCounts cs), h.ends⟩
  | addIntermediateCallback k =>
    exact ⟨wf_exec h.wf asserts (.addIntermediateCallback k), h.ends⟩

theorem good_run {b : Builder D} (h : Good b) (asserts : Bool) (ops : List (Op D)) :
    Good (run asserts ops b) := by
  induction ops generalizing b with
  | nil => exact h
  | cons op ops ih => exact ih (good_exec h asserts op)

theorem good_reachable {b : Builder D} (h : Reachable b) : Good b := by
  obtain ⟨asserts, ops, rfl⟩ := h
  refine good_run ⟨wf_new, ?_⟩ asserts ops
  intro s c hc
  simp [table, Builder.new] at hc

/-- C72: whatever calls a path was built by, every constraint along a segment is also required at
the two waypoints where the segment begins and ends. -/
theorem C72_ends (b : Builder D) (hb : Reachable b) (s : ℕ) (c : Constraint D)
    (hc : c ∈ (table b).continuous s) : c ∈ (table b).instant s ∧ c ∈ (table b).instant (s + 1) :=
  (good_reachable hb).ends s c hc

/-- Calls that build a path with the given constraints at waypoints `0, …, L` and along the segments
between them. -/
def buildCalls (inst cont : ℕ → List (Constraint D)) (L : ℕ) : List (Op D) :=
  ((List.range (L + 1)).flatMap fun w => (inst w).map fun c => .wptConstraint w c) ++
  (List.range L).flatMap fun s => (cont s).map fun c => .sgmtConstraint s (s + 1) c

omit [Dbl D] in
theorem reach_counts_free (t : PathTable D) (k : ℕ) : k < (t.reach k).waypoints := by
  simp only [PathTable.reach]; omega

/-- A path with any given constraints can be built, provided every constraint along a segment is
also given for the ends of that segment. -/
theorem build_path (dr : SwerveDrivetrain D) (inst cont : ℕ → List (Constraint D)) (N : List ℕ)
    (hN : N.length < 2 ^ 63)
    (hends : ∀ s < N.length, ∀ c ∈ cont s, c ∈ inst s ∧ c ∈ inst (s + 1)) :
    ∃ b : Builder D, Reachable b ∧ (table b).drivetrain = some dr ∧ (table b).counts = N ∧
      N.length < (table b).waypoints ∧
      (∀ w ≤ N.length, ∀ c, c ∈ (table b).instant w ↔ c ∈ inst w) ∧
      (∀ s < N.length, ∀ c, c ∈ (table b).continuous s ↔ c ∈ cont s) := by
  have r0 := run_snoc (b := (Builder.new : Builder D)) (asserts := true) (ops := []) rfl
    (op := .setDrivetrain dr) rfl
  obtain ⟨b1, e1, t1⟩ := C12_wpt_guess (Builder.new.setDrivetrain dr) ⟨_, _, r0⟩ N.length hN
    (originPose (D := D))
  have r1 := run_snoc r0 (op := .wptInitialGuessPoint N.length originPose) e1
  have hcalls : ∀ op ∈ buildCalls inst cont N.length, ConstraintCall op := by
    intro op hop
    simp only [buildCalls, List.mem_append, List.mem_flatMap, List.mem_range, List.mem_map] at hop
    rcases hop with ⟨w, hw, c, -, rfl⟩ | ⟨s, hs, c, -, rfl⟩
    · exact .wpt w c (by omega)
    · exact .sgmt s (s + 1) c (by omega) (by omega)
  obtain ⟨-, h2, h3, h4, -, h6, -, -⟩ :=
    constraint_calls true b1 (wf_reachable ⟨_, _, r1⟩) _ hcalls
  refine ⟨(run true (buildCalls inst cont N.length) b1).setControlIntervalCounts N,
    ⟨true, ([] ++ [.setDrivetrain dr] ++ [.wptInitialGuessPoint N.length originPose]) ++
      buildCalls inst cont N.length ++ [.controlIntervalCounts N], ?_⟩, ?_, rfl, ?_, ?_, ?_⟩
  rotate_left
  · change (table (run true (buildCalls inst cont N.length) b1)).drivetrain = some dr
    rw [h6, t1]
    rfl
  · change N.length < (table (run true (buildCalls inst cont N.length) b1)).waypoints
    rw [h2, t1]
    have hle : ∀ (l : List (Op D)) (n : ℕ), n ≤ l.foldr (fun op n => max (callMax op) n) n := by
      intro l n
      induction l with
      | nil => exact le_refl _
      | cons op l ih => exact ih.trans (Nat.le_max_right _ _)
    exact lt_of_lt_of_le (reach_counts_free _ _) (hle _ _)
  · intro w hw c
    change c ∈ (table (run true (buildCalls inst cont N.length) b1)).instant w ↔ _
    have hempty : (table b1).instant w = [] := by
      rw [t1]
      simp [PathTable.guessAt, PathTable.reach, table, Builder.setDrivetrain, Builder.new]
    rw [h3, hempty, List.nil_append]
    simp only [buildCalls, List.flatMap_append, List.mem_append, List.mem_flatMap, List.mem_map,
      List.mem_range]
    constructor
    · rintro (⟨op, ⟨w', -, c', hc', rfl⟩, hc⟩ | ⟨op, ⟨s, hs, c', hc', rfl⟩, hc⟩)
      · simp only [callInstant] at hc
        split at hc
        · simp only [List.mem_singleton] at hc
          subst hc; subst w; exact hc'
        · simp at hc
      · simp only [callInstant] at hc
        split at hc
        · simp only [List.mem_singleton] at hc
          subst hc
          rcases (by omega : w = s ∨ w = s + 1) with rfl | rfl
          · exact (hends w hs c hc').1
          · exact (hends s hs c hc').2
        · simp at hc
    · intro hc
      exact .inl ⟨_, ⟨w, by omega, c, hc, rfl⟩, by simp [callInstant]⟩
  · intro s hs c
    change c ∈ (table (run true (buildCalls inst cont N.length) b1)).continuous s ↔ _
    have hempty : (table b1).continuous s = [] := by
      rw [t1]
      simp [PathTable.guessAt, PathTable.reach, table, Builder.setDrivetrain, Builder.new]
    rw [h4, hempty, List.nil_append]
    simp only [buildCalls, List.flatMap_append, List.mem_append, List.mem_flatMap, List.mem_map,
      List.mem_range]
    constructor
    · rintro (⟨op, ⟨w', -, c', hc', rfl⟩, hc⟩ | ⟨op, ⟨s', hs', c', hc', rfl⟩, hc⟩)
      · simp [callContinuous] at hc
      · simp only [callContinuous] at hc
        split at hc
        · simp only [List.mem_singleton] at hc
          subst hc
          rwa [show s = s' by omega]
        · simp at hc
    · intro hc
      exact .inr ⟨_, ⟨s, hs, c, hc, rfl⟩, by simp [callContinuous]⟩
  · rw [r1]
    simp only [run, List.foldl_append, List.foldl_cons, List.foldl_nil]
    rfl

end AnyScalar

/-! ### C72 -/

/-- C72: any path can be cut in two at any of its waypoints; both parts can be built. -/
theorem C72_cut_exists (b : Builder ℝ) (hb : Reachable b) (dr : SwerveDrivetrain ℝ)
    (hr : Ready b dr) (K : ℕ) (hK : K ≤ (table b).counts.length) :
    ∃ b₁ b₂, Reachable b₁ ∧ Reachable b₂ ∧ Ready b₁ dr ∧ Ready b₂ dr ∧
      CutAt K (table b) (table b₁) (table b₂) := by
  have hlen := (wf_reachable hb).len
  have hw := hr.counts
  have hsize := hr.size
  have hsplit := sampleCount_drop (table b).counts K
  have hends := C72_ends b hb
  have hl₁ : ((table b).counts.take K).length = K := by rw [List.length_take]; omega
  have hl₂ : ((table b).counts.drop K).length = (table b).counts.length - K := List.length_drop ..
  have hww : (table b).waypoints ≤ 2 ^ 63 := hlen
  obtain ⟨b₁, r₁, d₁, c₁, w₁, i₁, s₁⟩ := build_path dr (table b).instant (table b).continuous
    ((table b).counts.take K) (by omega) fun s _ c hc => hends s c hc
  obtain ⟨b₂, r₂, d₂, c₂, w₂, i₂, s₂⟩ := build_path dr (fun w => (table b).instant (K + w))
    (fun s => (table b).continuous (K + s)) ((table b).counts.drop K) (by omega)
    fun s _ c hc => hends (K + s) c hc
  refine ⟨b₁, b₂, r₁, r₂, ⟨d₁, by rwa [c₁], ?_⟩, ⟨d₂, by rwa [c₂], ?_⟩, ?_⟩
  · rw [c₁, sampleCount_take]
    have : 0 < sampleCount ((table b).counts.drop K) := by rw [sampleCount]; omega
    omega
  · rw [c₂]; omega
  · exact ⟨hK, c₁, c₂, fun w hw => i₁ w (by omega), fun w hw => i₂ w (by omega),
      fun s hs => s₁ s (by omega), fun s hs => s₂ s (by omega)⟩

/-- C72: two paths, one of which ends with the constraints the other begins with, are the parts of a
path that can be built. -/
theorem C72_join_exists (b₁ b₂ : Builder ℝ) (hb₁ : Reachable b₁) (hb₂ : Reachable b₂)
    (dr : SwerveDrivetrain ℝ)
    (hsame : ∀ c, c ∈ (table b₁).instant (table b₁).counts.length ↔ c ∈ (table b₂).instant 0)
    (hlen : (table b₁).counts.length + (table b₂).counts.length < 2 ^ 63)
    (hsize : sampleCount ((table b₁).counts ++ (table b₂).counts) < 2 ^ 64) :
    ∃ b, Reachable b ∧ Ready b dr ∧
      CutAt (table b₁).counts.length (table b) (table b₁) (table b₂) := by
  generalize hK : (table b₁).counts.length = K at *
  have he₁ := C72_ends b₁ hb₁
  have he₂ := C72_ends b₂ hb₂
  obtain ⟨b, r, d, c, w, i, s⟩ := build_path dr
    (fun w => if w ≤ K then (table b₁).instant w else (table b₂).instant (w - K))
    (fun s => if s < K then (table b₁).continuous s else (table b₂).continuous (s - K))
    ((table b₁).counts ++ (table b₂).counts) (by rw [List.length_append, hK]; exact hlen) (by
      intro s _ c hc
      by_cases hs : s < K
      · simp only [hs, if_true] at hc
        simp only [hs.le, Nat.succ_le_of_lt hs, if_true]
        exact he₁ s c hc
      · simp only [hs, if_false] at hc
        have := he₂ _ c hc
        rw [show s - K + 1 = s + 1 - K by omega] at this
        simp only [show ¬ s + 1 ≤ K by omega, if_false]
        refine ⟨?_, this.2⟩
        split
        · rw [show s = K by omega]
          rw [show s - K = 0 by omega] at this
          exact (hsame c).mpr this.1
        · exact this.1)
  rw [List.length_append, hK] at w i s
  refine ⟨b, r, ⟨d, by rw [c, List.length_append, hK]; exact w, by rwa [c]⟩, ?_⟩
  refine ⟨by rw [c, List.length_append, hK]; omega, by rw [c, ← hK, List.take_left],
    by rw [c, ← hK, List.drop_left], ?_, ?_, ?_, ?_⟩
  · intro v hv k
    rw [i v (by omega) k]
    simp only [hv, if_true]
  · intro v hv k
    rw [c, List.length_append, hK] at hv
    rw [i (K + v) hv k]
    split
    · rw [show v = 0 by omega, Nat.add_zero]
      exact (hsame k).symm
    · rw [Nat.add_sub_cancel_left]
  · intro v hv k
    rw [s v (by omega) k]
    simp only [hv, if_true]
  · intro v hv k
    rw [c, List.length_append, hK] at hv
    rw [s (K + v) hv k]
    simp only [show ¬ K + v < K by omega, if_false, Nat.add_sub_cancel_left]

/-- C72: a trajectory of the whole path is, cut at the waypoint, a trajectory of each part, and the
times add up. -/
theorem C72_cut (b b₁ b₂ : Builder ℝ) (dr : SwerveDrivetrain ℝ) (T : Traj) (h : Solves b dr T)
    (hb₁ : Reachable b₁) (hb₂ : Reachable b₂) (hr₁ : Ready b₁ dr) (hr₂ : Ready b₂ dr) (K : ℕ)
    (hc : CutAt K (table b) (table b₁) (table b₂)) :
    let T₂ := T.from (waypointSample (table b).counts K) K
    Solves b₁ dr T ∧ Solves b₂ dr T₂ ∧
    timeTaken (table b).counts T =
      timeTaken (table b₁).counts T + timeTaken (table b₂).counts T₂ := by
  obtain ⟨h₁, h₂⟩ := obeys_cut hc h.obeys
  refine ⟨(solves_iff hb₁ hr₁ h.radius).mpr h₁, (solves_iff hb₂ hr₂ h.radius).mpr h₂, ?_⟩
  rw [hc.counts₁, hc.counts₂]
  exact timeTaken_cut _ hc.le T

/-- C72: trajectories of the parts that meet in one state are, one after the other, a trajectory of
the whole path, and the times add up.  (Module forces may jump where they meet.) -/
theorem C72_join (b b₁ b₂ : Builder ℝ) (dr : SwerveDrivetrain ℝ) (T₁ T₂ : Traj)
    (h₁ : Solves b₁ dr T₁) (h₂ : Solves b₂ dr T₂) (hb : Reachable b) (hr : Ready b dr) (K : ℕ)
    (hc : CutAt K (table b) (table b₁) (table b₂))
    (hmeet : T₁.state (waypointSample (table b).counts K) = T₂.state 0) :
    let T := Traj.join (waypointSample (table b).counts K) K T₁ T₂
    Solves b dr T ∧ timeTaken (table b).counts T =
      timeTaken (table b₁).counts T₁ + timeTaken (table b₂).counts T₂ := by
  refine ⟨(solves_iff hb hr h₁.radius).mpr (obeys_join hc h₁.obeys h₂.obeys hmeet), ?_⟩
  rw [hc.counts₁, hc.counts₂]
  exact timeTaken_join _ hc.le _ T₁ T₂

/-- `T` takes no longer than any other trajectory of the path. -/
structure Fastest (b : Builder ℝ) (dr : SwerveDrivetrain ℝ) (T : Traj) : Prop where
  solves : Solves b dr T
  least : ∀ T', Solves b dr T' → timeTaken (table b).counts T ≤ timeTaken (table b).counts T'

/-- C72: fastest trajectories of the parts that happen to meet make up a fastest trajectory of the
whole. -/
theorem C72_fastest_join (b b₁ b₂ : Builder ℝ) (dr : SwerveDrivetrain ℝ) (T₁ T₂ : Traj)
    (h₁ : Fastest b₁ dr T₁) (h₂ : Fastest b₂ dr T₂) (hb : Reachable b) (hr : Ready b dr) (K : ℕ)
    (hc : CutAt K (table b) (table b₁) (table b₂))
    (hmeet : T₁.state (waypointSample (table b).counts K) = T₂.state 0) :
    Fastest b dr (Traj.join (waypointSample (table b).counts K) K T₁ T₂) := by
  obtain ⟨hs, ht⟩ := C72_join b b₁ b₂ dr T₁ T₂ h₁.solves h₂.solves hb hr K hc hmeet
  refine ⟨hs, fun T' hT' => ?_⟩
  obtain ⟨g₁, g₂, gt⟩ := C72_cut b b₁ b₂ dr T' hT' h₁.solves.reachable h₂.solves.reachable
    h₁.solves.ready h₂.solves.ready K hc
  rw [ht, gt]
  exact add_le_add (h₁.least _ g₁) (h₂.least _ g₂)

/-- C72 (principle of optimality): what a fastest trajectory does from a waypoint on cannot be done
faster from the same state, and what it does before cannot be done faster if it has to end in the
same state. -/
theorem C72_fastest_parts (b b₁ b₂ : Builder ℝ) (dr : SwerveDrivetrain ℝ) (T : Traj)
    (h : Fastest b dr T) (hb₁ : Reachable b₁) (hb₂ : Reachable b₂) (hr₁ : Ready b₁ dr)
    (hr₂ : Ready b₂ dr) (K : ℕ) (hc : CutAt K (table b) (table b₁) (table b₂)) :
    (∀ T', Solves b₂ dr T' → T'.state 0 = T.state (waypointSample (table b).counts K) →
      timeTaken (table b₂).counts (T.from (waypointSample (table b).counts K) K) ≤
        timeTaken (table b₂).counts T') ∧
    (∀ T', Solves b₁ dr T' → T'.state (waypointSample (table b).counts K) =
        T.state (waypointSample (table b).counts K) →
      timeTaken (table b₁).counts T ≤ timeTaken (table b₁).counts T') := by
  obtain ⟨g₁, g₂, gt⟩ := C72_cut b b₁ b₂ dr T h.solves hb₁ hb₂ hr₁ hr₂ K hc
  constructor
  · intro T' hT' hm
    obtain ⟨hs, ht⟩ := C72_join b b₁ b₂ dr T T' g₁ hT' h.solves.reachable h.solves.ready K hc hm.symm
    have := h.least _ hs
    rw [ht, gt] at this
    linarith
  · intro T' hT' hm
    obtain ⟨hs, ht⟩ := C72_join b b₁ b₂ dr T' _ hT' g₂ h.solves.reachable h.solves.ready K hc hm
    have := h.least _ hs
    rw [ht, gt] at this
    linarith

/-! ### Example: 6 m and another 6 m -/

/-- The demonstration robot drives 6 m in 3 s, from any point on the `x` axis. -/
theorem straight_solves (x : ℝ) :
    Solves (run true (straightOps demoRobot 3 x 0 (x + 6) 0 0) Builder.new) demoRobot
      (straightTraj x 6 0 1 3) := by
  obtain ⟨h1, h2, h3, h4, h5, h6⟩ := straight_table demoRobot 3 x 0 (x + 6) 0 0
  set b := run true (straightOps demoRobot 3 x 0 (x + 6) 0 0) Builder.new with hb
  have hu : unitVec 0 = 1 := by simp [unitVec]
  have hr : Ready b demoRobot := ⟨h3, by rw [h1, h2]; simp, by rw [h2]; simp [sampleCount]⟩
  refine (solves_iff ⟨true, _, hb⟩ hr demo_radius).mpr ⟨?_, ?_, ?_, ?_, ?_, ?_⟩
  · intro s hs n hn
    have hn0 : 0 < n := by rw [segmentSamples, Finset.mem_Ioc] at hn; omega
    refine ⟨?_, .inl (by simp [straightTraj, hu]), by simp [straightTraj], by simp [straightTraj]⟩
    obtain ⟨k, rfl⟩ : ∃ k, n = k + 1 := ⟨n - 1, by omega⟩
    simp only [straightTraj, Nat.add_sub_cancel]
    push_cast
    ring
  · intro n hn
    refine ⟨by simp [straightTraj], by simp [straightTraj, torque], ?_, by simp [straightTraj, maxForce]⟩
    intro m hm
    simp only [demoRobot, List.mem_cons, List.not_mem_nil, or_false] at hm
    simp only [wheelVelocity, straightTraj, hu, map_one, one_mul, Complex.ofReal_zero, mul_zero,
      zero_mul, add_zero]
    rcases hm with rfl | rfl | rfl | rfl <;> norm_num [maxSpeed]
  · intro s hs; simp [straightTraj]
  · intro s hs m hm g hg
    simp only [demoRobot, List.mem_cons, List.not_mem_nil, or_false] at hm
    rw [demo_gap g hg]
    rcases hm with rfl | rfl | rfl | rfl <;> norm_num [straightTraj]
  · intro w hw c hc
    have hw' : w = 0 ∨ w = 1 := by rw [h2, List.length_singleton] at hw; omega
    rcases hw' with rfl | rfl
    · rw [h4, List.mem_singleton] at hc
      subst hc
      simp [Meaning, vec, straightTraj, waypointSample, Complex.ext_iff]
    · rw [h5, List.mem_singleton] at hc
      subst hc
      rw [h2]
      refine ⟨?_, .inl rfl⟩
      simp [vec, straightTraj, waypointSample, Complex.ext_iff]
      norm_num
  · intro s hs c hc
    have : s = 0 := by rw [h2] at hs; simpa using hs
    subst this
    rw [h6] at hc
    simp at hc

/-- No trajectory of this path is faster. -/
theorem straight_fastest (x : ℝ) :
    Fastest (run true (straightOps demoRobot 3 x 0 (x + 6) 0 0) Builder.new) demoRobot
      (straightTraj x 6 0 1 3) := by
  obtain ⟨-, h2, -, h4, h5, -⟩ := straight_table demoRobot 3 x 0 (x + 6) 0 0
  have hs := straight_solves x
  generalize run true (straightOps demoRobot 3 x 0 (x + 6) 0 0) Builder.new = b at *
  refine ⟨hs, fun T hT => ?_⟩
  have hi0 := hT.obeys.instant 0 (by rw [h2]; simp) (.poseEquality x 0 0) (by rw [h4]; simp)
  have hi1 := hT.obeys.instant 1 (by rw [h2]; simp) (.poseEquality (x + 6) 0 0) (by rw [h5]; simp)
  have hd := C66_distance b demoRobot T hT (by simp [Centred, demoRobot, vec, Complex.ext_iff])
    (by simp [demoRobot]) (fun n hn => C33_pose_partial b demoRobot T hT 0 (by rw [h2]; simp) x 0 0
      (by rw [h4]; simp) n hn) 2 (by
        intro m hm
        simp only [demoRobot, List.mem_cons, List.not_mem_nil, or_false] at hm
        rcases hm with rfl | rfl | rfl | rfl <;> norm_num) 0 3 (by norm_num)
    (by rw [h2]; norm_num [sampleCount])
  have e0 : waypointSample (table b).counts 0 = 0 := rfl
  have e1 : waypointSample (table b).counts 1 = 3 := by rw [h2]; simp [waypointSample]
  have e2 : timeTaken (table b).counts T = duration (table b).counts T 0 3 := by
    rw [timeTaken_eq, h2]; simp [sampleCount]
  rw [e0] at hi0
  rw [e1] at hi1
  have e3 : vec (⟨x + 6, 0⟩ : Translation2 ℝ) - vec ⟨x, 0⟩ = (6 : ℝ) := by
    simp [vec, Complex.ext_iff]
  rw [hi0.1, hi1.1, e3, Complex.norm_real, ← e2] at hd
  have e4 : timeTaken (table b).counts (straightTraj x 6 0 1 3) = 3 := by
    rw [h2]; norm_num [timeTaken, straightTraj]
  rw [e4]
  norm_num at hd
  linarith

/-- The hypotheses of C72 hold: two paths of 6 m each are the parts of a path of 12 m, and the
fastest way to drive that takes 6 s. -/
example : ∃ b b₁ b₂ T₁ T₂, Fastest b₁ demoRobot T₁ ∧ Fastest b₂ demoRobot T₂ ∧
    CutAt 1 (table b) (table b₁) (table b₂) ∧ (table b).counts = [3, 3] ∧
    (T₂.state 3).pos = 12 ∧ (T₁.state 0).pos = 0 ∧
    Fastest b demoRobot (Traj.join 3 1 T₁ T₂) ∧
    timeTaken (table b).counts (Traj.join 3 1 T₁ T₂) = 6 := by
  obtain ⟨-, a2, -, -, a5, -⟩ := straight_table demoRobot 3 0 0 (0 + 6) 0 0
  obtain ⟨-, c2, -, c4, -, -⟩ := straight_table demoRobot 3 6 0 (6 + 6) 0 0
  have s₁ := straight_fastest 0
  have s₂ := straight_fastest 6
  generalize hb₁ : run true (straightOps demoRobot 3 0 0 (0 + 6) 0 0) Builder.new = b₁ at *
  generalize hb₂ : run true (straightOps demoRobot 3 6 0 (6 + 6) 0 0) Builder.new = b₂ at *
  have hl : (table b₁).counts.length = 1 := by rw [a2]; rfl
  obtain ⟨b, hb, hr, hc⟩ := C72_join_exists b₁ b₂ s₁.solves.reachable s₂.solves.reachable demoRobot
    (by rw [hl, a5, c4]; norm_num) (by rw [a2, c2]; norm_num)
    (by rw [a2, c2]; norm_num [sampleCount])
  rw [hl] at hc
  have hcounts : (table b).counts = [3, 3] := by
    rw [← List.take_append_drop 1 (table b).counts, ← hc.counts₁, ← hc.counts₂, a2, c2]; rfl
  have hwS : waypointSample (table b).counts 1 = 3 := by rw [hcounts]; simp [waypointSample]
  have hmeet : (straightTraj (0 : ℝ) 6 0 1 3).state (waypointSample (table b).counts 1) =
      (straightTraj (6 : ℝ) 6 0 1 3).state 0 := by
    rw [hwS]
    simp only [straightTraj, State.mk.injEq, and_true]
    norm_num
  have hf := C72_fastest_join b b₁ b₂ demoRobot _ _ s₁ s₂ hb hr 1 hc hmeet
  have ht := (C72_join b b₁ b₂ demoRobot _ _ s₁.solves s₂.solves hb hr 1 hc hmeet).2
  rw [hwS] at hf
  simp only [hwS] at ht
  refine ⟨b, b₁, b₂, _, _, s₁, s₂, hc, hcounts, ?_, ?_, hf, ?_⟩
  · simp only [straightTraj]
    norm_num
  · simp only [straightTraj]
    norm_num
  · rw [ht, a2, c2]
    norm_num [timeTaken, straightTraj]

/-- Cutting the demonstration path at its last waypoint. -/
example : ∃ b₁ b₂, Reachable b₁ ∧ Reachable b₂ ∧ Ready b₁ demoRobot ∧ Ready b₂ demoRobot ∧
    CutAt 1 (table demoBuilder) (table b₁) (table b₂) :=
  C72_cut_exists demoBuilder ⟨true, demoOps, rfl⟩ demoRobot demo_ready 1
    (by rw [demo_table.2.1]; simp)

end Trajopt.Props
