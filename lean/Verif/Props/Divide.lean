import Verif.Spec.Divide
import Verif.Props.Intervals

/-!
# C114 Dividing a segment never hurts (real arithmetic)
-/

set_option autoImplicit false

namespace Trajopt.Props

open Spec Builder

theorem waypointSample_cons (x : ℕ) (l : List ℕ) (j : ℕ) :
    waypointSample (x :: l) (j + 1) = x + waypointSample l j := by
  simp [waypointSample]

section layout

variable {N N' : List ℕ} {k a : ℕ}

theorem divided_drop (hk : k < N.length)
    (h : N' = N.take k ++ a :: (N.getD k 0 - a) :: N.drop (k + 1)) :
    N'.take k = N.take k ∧ N'.drop k = a :: (N.getD k 0 - a) :: N.drop (k + 1) ∧
      N.drop k = N.getD k 0 :: N.drop (k + 1) ∧ N'.length = N.length + 1 := by
  have hl : (N.take k).length = k := by rw [List.length_take]; omega
  refine ⟨?_, ?_, ?_, ?_⟩
  · rw [h, List.take_append_of_le_length hl.ge, List.take_take, Nat.min_self]
  · rw [h, List.drop_append_of_le_length hl.ge, List.drop_eq_nil_of_le hl.le, List.nil_append]
  · rw [getD_lt hk, List.drop_eq_getElem_cons hk]
  · rw [h]
    simp only [List.length_append, hl, List.length_cons, List.length_drop]
    omega

theorem divided_before (hk : k < N.length) (h : N' = N.take k ++ a :: (N.getD k 0 - a) :: N.drop (k + 1))
    {w : ℕ} (hw : w ≤ k) : waypointSample N' w = waypointSample N w := by
  rw [← waypointSample_take hw, (divided_drop hk h).1, waypointSample_take hw]

theorem divided_new (hk : k < N.length) (h : N' = N.take k ++ a :: (N.getD k 0 - a) :: N.drop (k + 1)) :
    waypointSample N' (k + 1) = waypointSample N k + a := by
  rw [waypointSample_drop, (divided_drop hk h).2.1, divided_before hk h le_rfl, waypointSample_cons]
  simp [waypointSample]

theorem divided_after (hk : k < N.length) (ha : a ≤ N.getD k 0)
    (h : N' = N.take k ++ a :: (N.getD k 0 - a) :: N.drop (k + 1)) {w : ℕ} (hw : k < w) :
    waypointSample N' (w + 1) = waypointSample N w := by
  obtain ⟨j, rfl⟩ := Nat.exists_eq_add_of_lt hw
  obtain ⟨-, e, e', -⟩ := divided_drop hk h
  rw [show k + j + 1 + 1 = k + (j + 1 + 1) by omega, show k + j + 1 = k + (j + 1) by omega,
    waypointSample_drop N', waypointSample_drop N, e, e', divided_before hk h le_rfl,
    waypointSample_cons, waypointSample_cons, waypointSample_cons]
  omega

theorem divided_sampleCount (hk : k < N.length) (ha : a ≤ N.getD k 0)
    (h : N' = N.take k ++ a :: (N.getD k 0 - a) :: N.drop (k + 1)) : sampleCount N' = sampleCount N := by
  obtain ⟨-, e, e', -⟩ := divided_drop hk h
  rw [sampleCount_drop N' k, sampleCount_drop N k, e, e', divided_before hk h le_rfl]
  simp only [sampleCount, List.sum_cons]
  omega

theorem divided_time (hk : k < N.length) (ha : a ≤ N.getD k 0)
    (h : N' = N.take k ++ a :: (N.getD k 0 - a) :: N.drop (k + 1)) (T : Traj) :
    timeTaken N' (T.divided k) = timeTaken N T := by
  obtain ⟨e1, e, e', hl⟩ := divided_drop hk h
  have cons : ∀ (x : ℕ) (l : List ℕ) (f : ℕ → ℝ), ∑ s ∈ Finset.range (x :: l).length, ((x :: l).getD s 0 : ℝ) * f s =
      x * f 0 + ∑ s ∈ Finset.range l.length, (l.getD s 0 : ℝ) * f (s + 1) := by
    intro x l f
    rw [List.length_cons, Finset.sum_range_succ']
    simp [add_comm]
  rw [timeTaken_cut N' (by omega : k ≤ N'.length), timeTaken_cut N hk.le T, e1, e, e']
  simp only [timeTaken, cons, Traj.from, Traj.divided]
  congr 1
  · refine Finset.sum_congr rfl fun s hs => ?_
    have := Finset.mem_range.mp hs
    rw [List.length_take] at this
    rw [if_pos (by omega)]
  · rw [← add_assoc]
    congr 1
    · rw [Nat.cast_sub ha, if_pos (by omega), if_neg (by omega)]
      simp only [zero_add, Nat.add_sub_cancel]
      ring_nf
    · refine Finset.sum_congr rfl fun s _ => ?_
      rw [if_neg (by omega)]
      rfl

end layout

theorem obeys_divided {k a : ℕ} {t t' : PathTable ℝ} {dr : SwerveDrivetrain ℝ} (T : Traj) (h : DividedAt k a t t')
    (hends : ∀ s c, c ∈ t.continuous s → c ∈ t.instant s ∧ c ∈ t.instant (s + 1)) :
    Obeys t' dr (T.divided k) ↔ Obeys t dr T := by
  have hk := h.lt
  have ha := h.le
  obtain ⟨-, -, -, hl⟩ := divided_drop hk h.counts
  have hb := fun w => divided_before (w := w) hk h.counts
  have hn := divided_new hk h.counts
  have hf := fun w => divided_after (w := w) hk ha h.counts
  have hstep : waypointSample t.counts (k + 1) = waypointSample t.counts k + t.counts.getD k 0 := by
    rw [waypointSample, waypointSample, List.sum_take_succ _ _ hk, getD_lt hk]
  constructor
  · intro o
    constructor
    · intro s hs n hm
      obtain ⟨n1, n2⟩ := Finset.mem_Ioc.mp hm
      rcases lt_trichotomy s k with g | rfl | g
      · have := o.interval s (by omega) n (Finset.mem_Ioc.mpr ⟨by rw [hb s (by omega)]; exact n1, by
          rw [hb (s + 1) (by omega)]; exact n2⟩)
        simpa only [Traj.divided, if_pos g.le] using this
      · by_cases g : n ≤ waypointSample t.counts s + a
        · have := o.interval s (by omega) n (Finset.mem_Ioc.mpr ⟨by rw [hb s le_rfl]; exact n1, by rw [hn]; exact g⟩)
          simpa only [Traj.divided, if_pos le_rfl] using this
        · have := o.interval (s + 1) (by omega) n (Finset.mem_Ioc.mpr ⟨by rw [hn]; omega, by
            rw [hf (s + 1) (by omega)]; exact n2⟩)
          simpa [Traj.divided] using this
      · have := o.interval (s + 1) (by omega) n (Finset.mem_Ioc.mpr ⟨by rw [hf s g]; exact n1, by
            rw [hf (s + 1) (by omega)]; exact n2⟩)
        simpa [Traj.divided, show ¬ s + 1 ≤ k by omega] using this
    · intro n hm
      exact o.dynamics n (by rwa [divided_sampleCount hk ha h.counts])
    · intro s hs
      by_cases g : s ≤ k
      · simpa only [Traj.divided, if_pos g] using o.time s (by omega)
      · simpa [Traj.divided, show ¬ s + 1 ≤ k by omega] using o.time (s + 1) (by omega)
    · intro s hs
      by_cases g : s ≤ k
      · simpa only [Traj.divided, if_pos g] using o.stepCap s (by omega)
      · simpa [Traj.divided, show ¬ s + 1 ≤ k by omega] using o.stepCap (s + 1) (by omega)
    · intro w hw c hc
      by_cases g : w ≤ k
      · have := o.instant w (by omega) c ((h.instant_before w g c).mpr hc)
        rwa [hb w g] at this
      · have := o.instant (w + 1) (by omega) c ((h.instant_after w (by omega) hw c).mpr hc)
        rwa [hf w (by omega)] at this
    · intro s hs c hc n hm
      obtain ⟨n1, n2⟩ := Finset.mem_Ioc.mp hm
      rcases lt_trichotomy s k with g | rfl | g
      · exact o.continuous s (by omega) c ((h.continuous_before s g c).mpr hc) n (Finset.mem_Ioc.mpr
          ⟨by rw [hb s (by omega)]; exact n1, by rw [hb (s + 1) (by omega)]; exact n2⟩)
      · by_cases g : n ≤ waypointSample t.counts s + a
        · exact o.continuous s (by omega) c ((h.continuous_first c).mpr hc) n (Finset.mem_Ioc.mpr
            ⟨by rw [hb s le_rfl]; exact n1, by rw [hn]; exact g⟩)
        · exact o.continuous (s + 1) (by omega) c ((h.continuous_after s le_rfl hs c).mpr hc) n (Finset.mem_Ioc.mpr
            ⟨by rw [hn]; omega, by rw [hf (s + 1) (by omega)]; exact n2⟩)
      · exact o.continuous (s + 1) (by omega) c ((h.continuous_after s g.le hs c).mpr hc) n (Finset.mem_Ioc.mpr
            ⟨by rw [hf s g]; exact n1, by rw [hf (s + 1) (by omega)]; exact n2⟩)
  · intro o
    have seg : ∀ s < t'.counts.length, ∀ n ∈ segmentSamples t'.counts s,
        (s ≤ k ∧ n ∈ segmentSamples t.counts s) ∨ (k < s ∧ n ∈ segmentSamples t.counts (s - 1)) := by
      intro s hs n hm
      obtain ⟨n1, n2⟩ := Finset.mem_Ioc.mp hm
      simp only [segmentSamples, Finset.mem_Ioc]
      rcases lt_trichotomy s k with g | rfl | g
      · rw [hb s (by omega)] at n1
        rw [hb (s + 1) (by omega)] at n2
        exact .inl ⟨g.le, n1, n2⟩
      · rw [hb s (by omega)] at n1
        rw [hn] at n2
        exact .inl ⟨le_rfl, n1, by omega⟩
      · obtain ⟨s, rfl⟩ : ∃ r, s = r + 1 := ⟨s - 1, by omega⟩
        rw [hf (s + 1) (by omega)] at n2
        refine .inr ⟨g, ?_, by simpa using n2⟩
        rcases Nat.lt_or_ge k s with g' | g'
        · rw [hf s g'] at n1
          simpa using n1
        · obtain rfl : s = k := by omega
          rw [hn] at n1
          simp only [Nat.add_sub_cancel]
          omega
    constructor
    · intro s hs n hm
      rcases seg s hs n hm with ⟨g, g'⟩ | ⟨g, g'⟩
      · simpa only [Traj.divided, if_pos g] using o.interval s (by omega) n g'
      · simpa only [Traj.divided, if_neg (not_le.mpr g)] using o.interval (s - 1) (by omega) n g'
    · intro n hm
      exact o.dynamics n (by rwa [divided_sampleCount hk ha h.counts] at hm)
    · intro s hs
      simp only [Traj.divided]
      split
      · exact o.time s (by omega)
      · exact o.time (s - 1) (by omega)
    · intro s hs
      simp only [Traj.divided]
      split
      · exact o.stepCap s (by omega)
      · exact o.stepCap (s - 1) (by omega)
    · intro w hw c hc
      rcases lt_trichotomy w (k + 1) with g | rfl | g
      · rw [hb w (by omega)]
        exact o.instant w (by omega) c ((h.instant_before w (by omega) c).mp hc)
      · have hc := (h.instant_new c).mp hc
        rw [hn]
        rcases Nat.eq_zero_or_pos a with rfl | g
        · exact o.instant k (by omega) c (hends k c hc).1
        · exact o.continuous k hk c hc _ (Finset.mem_Ioc.mpr ⟨by omega, by omega⟩)
      · obtain ⟨w, rfl⟩ : ∃ r, w = r + 1 := ⟨w - 1, by omega⟩
        rw [hf w (by omega)]
        exact o.instant w (by omega) c ((h.instant_after w (by omega) (by omega) c).mp hc)
    · intro s hs c hc n hm
      rcases seg s hs n hm with ⟨g, g'⟩ | ⟨g, g'⟩
      · refine o.continuous s (by omega) c ?_ n g'
        rcases Nat.lt_or_ge s k with q | q
        · exact (h.continuous_before s q c).mp hc
        · obtain rfl : s = k := by omega
          exact (h.continuous_first c).mp hc
      · refine o.continuous (s - 1) (by omega) c ?_ n g'
        refine (h.continuous_after (s - 1) (by omega) (by omega) c).mp ?_
        rwa [show s - 1 + 1 = s by omega]

/-- C114: whatever drives the path drives the divided path in the same time, and whatever drives the divided path with
equal time steps in both parts drives the path. -/
theorem C114_same (b b' : Builder ℝ) (hb : Reachable b) (hb' : Reachable b') (dr : SwerveDrivetrain ℝ)
    (hr : Ready b dr) (hr' : Ready b' dr) (k a : ℕ) (h : DividedAt k a (table b) (table b')) (T : Traj) :
    (Solves b' dr (T.divided k) ↔ Solves b dr T) ∧
    timeTaken (table b').counts (T.divided k) = timeTaken (table b).counts T := by
  refine ⟨⟨fun g => ?_, fun g => ?_⟩, divided_time h.lt h.le h.counts T⟩
  · exact (solves_iff hb hr g.radius).mpr ((obeys_divided T h (C72_ends b hb)).mp g.obeys)
  · exact (solves_iff hb' hr' g.radius).mpr ((obeys_divided T h (C72_ends b hb)).mpr g.obeys)

/-- C114: trajectories of the divided path with equal time steps in both parts are trajectories of the path. -/
theorem C114_equal (b b' : Builder ℝ) (hb : Reachable b) (hb' : Reachable b') (dr : SwerveDrivetrain ℝ)
    (hr : Ready b dr) (hr' : Ready b' dr) (k a : ℕ) (h : DividedAt k a (table b) (table b')) (T' : Traj)
    (hT : Solves b' dr T') (he : T'.dt k = T'.dt (k + 1)) :
    ∃ T, T.divided k = T' ∧ Solves b dr T := by
  have e : Traj.divided k ⟨T'.state, T'.force, fun s => if s ≤ k then T'.dt s else T'.dt (s + 1)⟩ = T' := by
    rw [Traj.divided]
    congr 1
    funext s
    rcases lt_trichotomy s (k + 1) with g | rfl | g
    · simp [show s ≤ k by omega]
    · simp [he]
    · simp [show ¬ s ≤ k by omega, show ¬ s - 1 ≤ k by omega, show s - 1 + 1 = s by omega]
  exact ⟨_, e, (C114_same b b' hb hb' dr hr hr' k a h _).1.mp (by rwa [e])⟩

/-- C114: the divided path is driven at least as fast. -/
theorem C114_faster (b b' : Builder ℝ) (dr : SwerveDrivetrain ℝ) (k a : ℕ) (h : DividedAt k a (table b) (table b'))
    (T T' : Traj) (hT : Fastest b dr T) (hT' : Fastest b' dr T') :
    timeTaken (table b').counts T' ≤ timeTaken (table b).counts T := by
  obtain ⟨h1, h2⟩ := C114_same b b' hT.solves.reachable hT'.solves.reachable dr hT.solves.ready hT'.solves.ready k a h T
  exact (hT'.least _ (h1.mpr hT.solves)).trans h2.le

/-- C114: every segment of every path can be divided anywhere. -/
theorem C114_exists (b : Builder ℝ) (hb : Reachable b) (dr : SwerveDrivetrain ℝ) (hr : Ready b dr) (k a : ℕ)
    (hk : k < (table b).counts.length) (ha : a ≤ (table b).counts.getD k 0)
    (hlen : (table b).counts.length + 1 < 2 ^ 63) :
    ∃ b', Reachable b' ∧ Ready b' dr ∧ DividedAt k a (table b) (table b') := by
  have hends := C72_ends b hb
  generalize hN : (table b).counts.take k ++ a :: ((table b).counts.getD k 0 - a) :: (table b).counts.drop (k + 1) = N'
  obtain ⟨-, -, -, hl⟩ := divided_drop hk hN.symm
  obtain ⟨b', r, d, c, w, i, s⟩ := build_path dr
    (fun w => if w ≤ k then (table b).instant w else if w = k + 1 then (table b).continuous k
      else (table b).instant (w - 1))
    (fun s => if s ≤ k then (table b).continuous s else (table b).continuous (s - 1)) N' (by omega) (by
      intro s hs c hc
      rcases lt_trichotomy s k with g | rfl | g
      · rw [if_pos g.le] at hc
        rw [if_pos g.le, if_pos (by omega)]
        exact hends s c hc
      · rw [if_pos le_rfl] at hc
        rw [if_pos le_rfl, if_neg (by omega), if_pos rfl]
        exact ⟨(hends s c hc).1, hc⟩
      · rw [if_neg (by omega)] at hc
        obtain ⟨s, rfl⟩ : ∃ r, s = r + 1 := ⟨s - 1, by omega⟩
        refine ⟨?_, by rw [if_neg (by omega), if_neg (by omega)]; exact (hends s c hc).2⟩
        rw [if_neg (by omega)]
        split
        next g' =>
          obtain rfl : s = k := by omega
          exact hc
        · exact (hends s c hc).1)
  refine ⟨b', r, ⟨d, by rw [c]; exact w, ?_⟩, hk, ha, by rw [c, hN], ?_, ?_, ?_, ?_, ?_, ?_⟩
  · have := hr.size
    rw [c, divided_sampleCount hk ha hN.symm]
    exact this
  · intro w hw c
    rw [i w (by omega) c, if_pos hw]
  · intro c
    rw [i (k + 1) (by omega) c, if_neg (by omega), if_pos rfl]
  · intro w hw hw' c
    rw [i (w + 1) (by omega) c, if_neg (by omega), if_neg (by omega), Nat.add_sub_cancel]
  · intro s' hs c
    rw [s s' (by omega) c, if_pos hs.le]
  · intro c
    rw [s k (by omega) c, if_pos le_rfl]
  · intro s' hs hs' c
    rw [s (s' + 1) (by omega) c, if_neg (by omega), Nat.add_sub_cancel]

/-- C114: dividing a segment can make the fastest trajectory faster: the hop of one metre in an odd number of control
intervals, divided after the first of them. -/
theorem C114_helps (n : ℕ) (hn : 1 ≤ n) (hn' : 2 * n + 1 < 2 ^ 64 - 1) :
    ∃ (dr : SwerveDrivetrain ℝ) (b b' : Builder ℝ), (table b).counts = [2 * n + 1] ∧
      DividedAt 0 1 (table b) (table b') ∧ (∃ T, Fastest b dr T) ∧ (∃ T', Fastest b' dr T') ∧
      ∀ T T', Fastest b dr T → Fastest b' dr T' →
        timeTaken (table b').counts T' < timeTaken (table b).counts T := by
  obtain ⟨⟨T₀, hT₀⟩, ht₀⟩ := hopIn_time (2 * n) (by omega) (by omega)
  obtain ⟨⟨T₁, hT₁⟩, ht₁⟩ := hopIn_time (2 * n + 1) (by omega) hn'
  obtain ⟨hr₀, hc₀, hco₀, hi₀, hi₀'⟩ := hopIn_table (2 * n) (by omega)
  obtain ⟨hr, hc, hco, hi, hi'⟩ := hopIn_table (2 * n + 1) hn'
  have hlt : timeTaken [2 * n] T₀ < timeTaken [2 * n + 1] T₁ := by
    rw [ht₀ T₀ hT₀, ht₁ T₁ hT₁, slowness, if_pos (by simp)]
    exact mul_lt_mul_of_pos_left (slowness_odd (by omega) (by simp)) (by positivity)
  generalize run true (hopIn (2 * n)) Builder.new = b₀ at *
  generalize hb : run true (hopIn (2 * n + 1)) Builder.new = b at *
  obtain ⟨b', rb', r', hd⟩ := C114_exists b ⟨_, _, hb.symm⟩ demoRobot hr 0 1 (by rw [hc]; simp) (by rw [hc]; simp) (by
    rw [hc]; simp)
  have hc' : (table b').counts = [1, 2 * n] := by rw [hd.counts, hc]; simp
  have hs' : Solves b' demoRobot ⟨fun m => T₀.state (m - 1), fun m => T₀.force (m - 1), fun s =>
      if s = 0 then 0 else T₀.dt 0⟩ := by
    rw [solves_iff rb' r' hT₀.solves.radius]
    have o := hT₀.solves.obeys
    have hlen₀ : (table b₀).counts.length = 1 := by rw [hc₀]; rfl
    have hlen : (table b').counts.length = 2 := by rw [hc']; rfl
    have hnone : ∀ s < 2, ∀ c, c ∉ (table b').continuous s := by
      intro s hs c hcs
      interval_cases s
      · rw [hd.continuous_first, hco] at hcs
        simp at hcs
      · rw [hd.continuous_after 0 le_rfl (by rw [hc]; simp), hco] at hcs
        simp at hcs
    constructor
    · intro s hs n hm
      rw [hlen] at hs
      rw [hc'] at hm
      interval_cases s
      · obtain rfl : n = 1 := by simpa [segmentSamples, waypointSample] using hm
        have hpose := o.instant 0 (by omega) (.poseEquality 0 0 0) (by rw [hi₀]; simp)
        have hone : (T₀.state 0).heading * (starRingEnd ℂ) (T₀.state 0).heading = 1 := by
          have : ‖(T₀.state 0).heading‖ = 1 := by
            rcases hpose.2 with g | g <;>
            · change (T₀.state 0).heading = _ at g
              rw [g]
              simp [unitVec]
          rw [Complex.mul_conj, Complex.normSq_eq_norm_sq, this]
          simp
        refine ⟨by simp, .inl ?_, by simp, by simp⟩
        simpa [unitVec] using hone
      · have hm : 1 < n ∧ n - 1 ∈ segmentSamples (table b₀).counts 0 := by
          rw [hc₀]
          simp only [segmentSamples, waypointSample, Finset.mem_Ioc] at hm ⊢
          simp at hm ⊢
          omega
        have := o.interval 0 (by omega) (n - 1) hm.2
        simpa using this
    · intro n hm
      refine o.dynamics (n - 1) ?_
      rw [hc'] at hm
      rw [hc₀]
      simp only [sampleCount, List.sum_cons, List.sum_nil] at hm ⊢
      omega
    · intro s hs
      dsimp only
      split
      · exact le_rfl
      · exact o.time 0 (by omega)
    · intro s hs m hm g hg
      dsimp only
      split
      · obtain ⟨-, _, _, -, e⟩ := hg
        rw [zero_mul, zero_mul]
        rcases e with e | e <;> exact e ▸ abs_nonneg _
      · exact o.stepCap 0 (by omega) m hm g hg
    · intro w hw c hcw
      rw [hlen] at hw
      rw [hc']
      interval_cases w
      · rw [hd.instant_before 0 le_rfl, hi, ← hi₀] at hcw
        exact o.instant 0 (by omega) c hcw
      · rw [hd.instant_new, hco] at hcw
        simp at hcw
      · rw [hd.instant_after 1 (by omega) (by rw [hc]; simp), hi', ← hi₀'] at hcw
        have := o.instant 1 (by omega) c hcw
        rw [hc₀] at this
        simpa [waypointSample] using this
    · intro s hs c hcs
      exact absurd hcs (hnone s (by omega) c)
  have htime : timeTaken (table b').counts ⟨fun m => T₀.state (m - 1), fun m => T₀.force (m - 1), fun s =>
      if s = 0 then 0 else T₀.dt 0⟩ = timeTaken [2 * n] T₀ := by
    rw [hc']
    simp [timeTaken, Finset.sum_range_succ]
  refine ⟨demoRobot, b, b', hc, hd, ⟨T₁, hT₁⟩, ?_, fun T T' hT hT' => ?_⟩
  · exact C78_fastest b' demoRobot ⟨_, hs'⟩ 0 (by omega) 0 0 0
      (by rw [hd.instant_before 0 le_rfl, hi]; simp) demo_apart (by simp [demoRobot]) (by simp [demoRobot])
  · refine ((hT'.least _ hs').trans_eq htime).trans_lt ?_
    rw [hc, ht₁ T hT, ← ht₁ T₁ hT₁]
    exact hlt

/-- The hop in 41 control intervals is faster when divided after the first. -/
example : ∃ (dr : SwerveDrivetrain ℝ) (b b' : Builder ℝ), (table b).counts = [41] ∧
    DividedAt 0 1 (table b) (table b') ∧ (∃ T, Fastest b dr T) ∧ (∃ T', Fastest b' dr T') ∧
    ∀ T T', Fastest b dr T → Fastest b' dr T' →
      timeTaken (table b').counts T' < timeTaken (table b).counts T := C114_helps 20 (by norm_num) (by norm_num)

end Trajopt.Props
