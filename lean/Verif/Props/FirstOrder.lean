import Verif.Lemmas.Eased
import Verif.Props.Smooth
import Verif.Props.Steer
import Verif.Props.Locality
import Verif.Props.Interior
import Mathlib.Analysis.Calculus.Deriv.Prod

/-!
# C124: the conditions that the solver looks for hold at a fastest trajectory
-/

set_option autoImplicit false

namespace Trajopt.Props

open Spec Filter Topology

/-- Near an assignment without corners all constraints have values. -/
theorem cons_defined (b : Builder ℝ) (hb : Reachable b) (dr : SwerveDrivetrain ℝ) (hr : Ready b dr)
    (handle : ℤ) (g : Generator ℝ) (hg : Generator.construct b handle = .ok g)
    (x : Fin g.problem.nvars → ℝ)
    (hi : ∀ w ≤ (table b).counts.length, ∀ c ∈ (table b).instant w,
      ¬ Corner c ((decode g.vars (ofVec x)).state (waypointSample (table b).counts w)))
    (hc : ∀ s < (table b).counts.length, ∀ c ∈ (table b).continuous s, ∀ n ∈ segmentSamples (table b).counts s,
      ¬ Corner c ((decode g.vars (ofVec x)).state n)) :
    ∀ c ∈ g.problem.cons, ∀ᶠ y in 𝓝 x, c.Defined (ofVec y) := by
  obtain ⟨sol, -, -, hcl⟩ := construct_closed hb hr handle
  rw [hg] at hcl
  cases hcl
  have hst : ∀ n < 1 + (table b).counts.sum, (decode (closedGenerator b.path dr b.controlIntervalCounts sol handle).vars
      (ofVec x)).state n = decodeSample (ofVec x) (sampleVars dr.modules.length n) :=
    fun n hn => decode_state _ _ _ _ hn
  intro c hcm
  change c ∈ allCons b.path dr (table b).counts at hcm
  simp only [allCons, List.mem_append] at hcm
  rcases hcm with ((((h | h) | h) | h) | h) | h
  · simp only [List.mem_flatMap, List.mem_map] at h
    obtain ⟨_, _, _, _, rfl⟩ := h
    simp only [stepCap]
    refine eventually_con x _ ?_
    split <;> simp [RegularCon]
  · simp only [List.mem_map] at h
    obtain ⟨_, _, rfl⟩ := h
    exact eventually_con x _ (by simp [RegularCon])
  · simp only [kinList, List.mem_flatMap] at h
    obtain ⟨_, _, _, _, h⟩ := h
    exact eventually_con x _ (regular_kin _ _ _ _ _ _ h)
  · simp only [List.mem_flatMap, dynCons, List.mem_append, List.mem_cons, List.not_mem_nil, or_false] at h
    obtain ⟨n, _, h | rfl | rfl | rfl⟩ := h
    · exact eventually_con x _ (regular_power _ _ _ _ _ _ h)
    · exact eventually_con x _ ⟨regular_accumulate _ _, trivial, trivial⟩
    · exact eventually_con x _ ⟨regular_accumulate _ _, trivial, trivial⟩
    · exact eventually_con x _ ⟨regular_torque _ _ _ _ _ _ trivial, trivial, trivial⟩
  · simp only [wptList, List.mem_flatMap, List.mem_range] at h
    obtain ⟨w, hw, c', hc', h⟩ := h
    refine apply_defined_near x c' ?_ c h
    have := hi w (by omega) c' hc'
    rw [hst _ (by
      have := sum_take_le (table b).counts w
      rw [waypointSample]; omega)] at this
    exact this
  · simp only [sgmtList, List.mem_flatMap, List.mem_range] at h
    obtain ⟨s, hs, c', hc', n, hn, h⟩ := h
    rw [List.mem_range'_1, getD_lt hs] at hn
    refine apply_defined_near x c' ?_ c h
    have := hc s hs c' hc' n ((mem_segmentSamples hs).mpr ⟨n - 1 - ((table b).counts.take s).sum, by omega, by omega⟩)
    rw [hst _ (by
      have := sum_take_le (table b).counts (s + 1)
      rw [List.sum_take_succ _ _ hs] at this
      omega)] at this
    exact this

open scoped Classical in
/-- If the equations are independent, the balance is not one of equations only. -/
theorem balance_beyond {p : Problem ℝ} {P : Con ℝ → Prop} {x : Fin p.nvars → ℝ} {m : Con ℝ → ℝ} {e : Expr ℝ}
    (he : p.cost = some e) (hs : SmoothAt 1 p x) (hscope : ∀ c ∈ p.cons, ∀ i, Involves c i → i < p.nvars)
    (hind : Independent P p.cons (ofVec x)) (hB : Balanced p x 0 m) (hP : ∀ c, m c ≠ 0 → P c)
    (hne : ∃ c ∈ p.cons, m c ≠ 0) : ∃ c ∈ p.cons, Inequality c ∧ m c ≠ 0 := by
  by_contra hno
  push Not at hno
  obtain ⟨d, hd⟩ := hind (p.cons.map m) (by simp)
  rw [List.forall₂_map_right_iff, List.forall₂_same] at hd
  have hbal := hB.balance e he fun i => d i
  rw [zero_mul, zero_add, Finset.sum_congr rfl (g := fun c => m c * m c) fun c hc => ?_] at hbal
  · rw [Finset.sum_eq_zero_iff_of_nonneg fun c _ => mul_self_nonneg _] at hbal
    obtain ⟨c, hc, h0⟩ := hne
    exact h0 (mul_self_eq_zero.mp (hbal c (List.mem_toFinset.mpr hc)))
  · rw [List.mem_toFinset] at hc
    by_cases h0 : m c = 0
    · rw [h0, zero_mul, zero_mul]
    · cases c with
      | eq a b =>
        rw [fderiv_of_rate (hscope _ hc) ((hs.2 _ hc).differentiableAt (by simp)) (hd _ hc (hP _ h0) a b rfl)]
      | le a b => exact absurd (hno _ hc trivial) h0
      | ge a b => exact absurd (hno _ hc trivial) h0
      | leInf a => exact absurd (hB.unlimited a) h0

/-- The step caps that have room keep some when the trajectory takes a little longer. -/
theorem brief_slower {t : PathTable ℝ} {dr : SwerveDrivetrain ℝ} {T : Traj}
    (hcap : ∀ s < t.counts.length, ∀ m ∈ dr.modules, ∀ g, Gap dr g →
      T.dt s * m.wheelRadius * m.wheelMaxAngularVelocity < g) :
    ∀ᶠ k : ℝ in 𝓝 1, ∀ s < t.counts.length, Brief dr (k * T.dt s) := by
  have hev : ∀ᶠ k : ℝ in 𝓝 1, ∀ s ∈ Finset.range t.counts.length, ∀ m ∈ {m | m ∈ dr.modules},
      Below (k * T.dt s * m.wheelRadius * m.wheelMaxAngularVelocity) (minWidth dr.modules) := by
    rw [eventually_all_finset]
    intro s hs
    rw [eventually_all_finite (List.finite_toSet dr.modules)]
    intro m hm
    have h0 := (below_minWidth dr _).mpr (hcap s (Finset.mem_range.mp hs) m hm)
    cases hw : minWidth dr.modules with
    | none => exact .of_forall fun _ => trivial
    | some w =>
      rw [hw] at h0
      have hcont : Continuous fun k : ℝ => k * T.dt s * m.wheelRadius * m.wheelMaxAngularVelocity := by fun_prop
      exact hcont.continuousAt.eventually_lt continuousAt_const (by rw [one_mul]; exact h0)
  filter_upwards [hev] with k hk s hs m hm g hg
  exact ((below_minWidth dr _).mp (hk s (Finset.mem_range.mpr hs) m hm) g hg).le

/-- Two functions that agree from a point on have the same derivative there. -/
theorem deriv_eq_of_right {f h : ℝ → ℝ} {a c t : ℝ} (hf : HasDerivAt f a t) (hh : HasDerivAt h c t)
    (he : ∀ᶠ k in 𝓝 t, t ≤ k → f k = h k) : a = c := by
  have h1 := hf.hasDerivWithinAt (s := Set.Ici t)
  have h2 := hh.hasDerivWithinAt (s := Set.Ici t)
  refine (uniqueDiffOn_Ici t t Set.self_mem_Ici).eq_deriv _ h1 (h2.congr_of_eventuallyEq ?_ ?_)
  · rw [eventuallyEq_nhdsWithin_iff]
    filter_upwards [he] with k hk hkt using hk hkt
  · exact he.self_of_nhds le_rfl

/-- Driving slower is a direction in which no equation changes and every active limit recedes. -/
theorem slower_direction (b : Builder ℝ) (hb : Reachable b) (dr : SwerveDrivetrain ℝ) (hr : Ready b dr)
    (hR : ∀ m ∈ dr.modules, m.wheelRadius ≠ 0) (hN : ∀ n ∈ (table b).counts, n < 2 ^ 31)
    (handle : ℤ) (g : Generator ℝ) (hg : Generator.construct b handle = .ok g)
    (x : Fin g.problem.nvars → ℝ) (hx : g.problem.Feasible (ofVec x)) (hsm : SmoothAt 1 g.problem x)
    (hwheel : ∀ m ∈ dr.modules, 0 < maxSpeed m ∧ 0 < maxForce m)
    (htime : ∀ s < (table b).counts.length, 0 < (decode g.vars (ofVec x)).dt s)
    (hcap : ∀ s < (table b).counts.length, ∀ m ∈ dr.modules, ∀ gap, Gap dr gap →
      (decode g.vars (ofVec x)).dt s * m.wheelRadius * m.wheelMaxAngularVelocity < gap)
    (hi : ∀ w ≤ (table b).counts.length, ∀ c ∈ (table b).instant w, OfPlace c →
      Room c ((decode g.vars (ofVec x)).state (waypointSample (table b).counts w)))
    (hc : ∀ s < (table b).counts.length, ∀ c ∈ (table b).continuous s, OfPlace c →
      ∀ n ∈ segmentSamples (table b).counts s, Room c ((decode g.vars (ofVec x)).state n)) :
    ∃ d : Fin g.problem.nvars → ℝ, (∀ e, g.problem.cost = some e →
      fderiv ℝ (fun y : Fin g.problem.nvars → ℝ => e.eval (ofVec y)) x d = e.eval (ofVec x)) ∧ ∀ c ∈ g.problem.cons,
      (isEq c = true → fderiv ℝ (fun y : Fin g.problem.nvars → ℝ => conFun (ofVec y) c) x d = 0) ∧
      (Inequality c → conFun (ofVec x) c = 0 →
        conSign c * fderiv ℝ (fun y : Fin g.problem.nvars → ℝ => conFun (ofVec y) c) x d < 0) := by
  obtain ⟨e, he, hev⟩ := C42_objective b hb dr hr hN handle g hg
  obtain ⟨sol, -, -, hcl⟩ := construct_closed hb hr handle
  rw [hg] at hcl
  cases hcl
  set σ := ofVec x with hσ
  set S := 1 + (table b).counts.sum with hS
  set m := dr.modules.length with hm
  have hob := (feasible_closed b dr sol handle σ).mp hx
  have hsolves := (solves_iff hb hr hR).mpr hob
  have hag := fun k => eased_decode m S (table b).counts.length σ k
  set y : ℝ → Fin (closedGenerator b.path dr b.controlIntervalCounts sol handle).problem.nvars → ℝ :=
    fun k i => eased m S σ k i with hy
  have hof : ∀ k, ofVec (y k) = eased m S σ k := by
    intro k
    funext i
    by_cases h : i < (closedGenerator b.path dr b.controlIntervalCounts sol handle).problem.nvars
    · simp [ofVec, h, hy]
    · have h0 : σ i = 0 := by simp [hσ, ofVec, h]
      simp [ofVec, h, eased, h0]
  have hy1 : y 1 = x := by
    funext i
    rw [hy]
    simp only [eased_one, hσ]
    simp [ofVec]
  choose D hD using fun v => hasDerivAt_eased m S σ v
  have hyd : HasDerivAt y (fun i => D i) 1 := hasDerivAt_pi.mpr fun i => hD i
  have hcomp : ∀ c ∈ (closedGenerator b.path dr b.controlIntervalCounts sol handle).problem.cons,
      HasDerivAt (fun k => conFun (eased m S σ k) c)
        (fderiv ℝ (fun y : Fin (closedGenerator b.path dr b.controlIntervalCounts sol handle).problem.nvars → ℝ =>
          conFun (ofVec y) c) x (fun i => D i)) 1 := by
    intro c hcm
    have h1 := ((hsm.2 c hcm).differentiableAt (by simp)).hasFDerivAt
    rw [← hy1] at h1
    have h2 := h1.comp_hasDerivAt (1 : ℝ) hyd
    simp only [Function.comp_def, hof, hy1] at h2
    exact h2
  have hfeas : ∀ᶠ k : ℝ in 𝓝 1, 1 ≤ k →
      (closedGenerator b.path dr b.controlIntervalCounts sol handle).problem.Feasible (eased m S σ k) := by
    filter_upwards [brief_slower hcap] with k hk h1
    rw [feasible_closed]
    refine (obeys_congr (?_ : Traj.Agree (sampleCount (table b).counts) m (table b).counts.length _ _)).mpr
      ((C103_slower_partial k h1 b dr _ hsolves).mpr hk).obeys
    rw [show sampleCount (table b).counts = S by simp only [sampleCount]; omega]
    exact hag k
  refine ⟨fun i => D i, fun e' he' => ?_, fun c hcm => ⟨fun heq => ?_, fun hineq hact => ?_⟩⟩
  · obtain rfl : e = e' := Option.some.inj (he.symm.trans he')
    have h1 := ((hsm.1 e he).differentiableAt (by simp)).hasFDerivAt
    rw [← hy1] at h1
    have h2 := h1.comp_hasDerivAt (1 : ℝ) hyd
    simp only [Function.comp_def, hof, hy1] at h2
    refine h2.unique (((hasDerivAt_id (1 : ℝ)).mul_const (e.eval σ)).congr_deriv (one_mul _) |>.congr_of_eventuallyEq
      (.of_forall fun k => ?_))
    change e.eval (eased m S σ k) = k * e.eval σ
    rw [(hev _).1, (hev _).1, Finset.mul_sum]
    refine Finset.sum_congr rfl fun s _ => ?_
    rw [show (decode (closedGenerator b.path dr b.controlIntervalCounts sol handle).vars (eased m S σ k)).dt s =
      k * (decode (closedGenerator b.path dr b.controlIntervalCounts sol handle).vars σ).dt s from (hag k).dt s s.2]
    ring
  · refine deriv_eq_of_right (hcomp c hcm) (hasDerivAt_const 1 (0 : ℝ)) ?_
    filter_upwards [hfeas] with k hk h1
    have := hk h1 c hcm
    cases c with
    | eq a b => exact sub_eq_zero.mpr this.2.2
    | le a b => simp [isEq] at heq
    | ge a b => simp [isEq] at heq
    | leInf a => simp [isEq] at heq
  · have hst : ∀ n < S, (decode (closedGenerator b.path dr b.controlIntervalCounts sol handle).vars σ).state n =
        decodeSample σ (sampleVars m n) := fun n hn => decode_state _ _ _ _ hn
    have hnot : ¬ c.Less σ := by
      cases c with
      | eq a b => exact hineq.elim
      | le a b => exact not_lt.mpr (sub_eq_zero.mp hact).ge
      | ge a b => exact not_lt.mpr (sub_eq_zero.mp hact).le
      | leInf a => exact hineq.elim
    have hshr : Shrinks m S σ c := by
      have hdt : ∀ s < (table b).counts.length,
          (decode (closedGenerator b.path dr b.controlIntervalCounts sol handle).vars σ).dt s = σ (S * stride m + s) := by
        intro s hs
        simp only [decode, closedGenerator, closedVars]
        rw [getD_lt (by simpa using (show s < b.controlIntervalCounts.length from hs))]
        simp only [List.getElem_range', Nat.one_mul]
        rfl
      change c ∈ allCons b.path dr (table b).counts at hcm
      simp only [allCons, List.mem_append, ← hm, ← hS] at hcm
      rcases hcm with ((((h | h) | h) | h) | h) | h
      · simp only [List.mem_flatMap, List.mem_map, List.mem_range'_1] at h
        obtain ⟨v, hv, md, hmd, rfl⟩ := h
        refine absurd ((stepCap_less σ dr v md).mpr fun gap hgap => ?_) hnot
        have := hcap (v - S * stride m) (by omega) md hmd gap hgap
        rwa [hdt _ (by omega), Nat.add_sub_cancel' hv.1] at this
      · simp only [List.mem_map] at h
        obtain ⟨⟨v, k⟩, hv, rfl⟩ := h
        have hv' := (List.of_mem_zip hv).1
        rw [List.mem_range'_1] at hv'
        have := htime (v - S * stride m) (by omega)
        rw [hdt _ (by omega), Nat.add_sub_cancel' hv'.1] at this
        exact absurd (show Con.Less σ _ by simpa [Con.Less] using this) hnot
      · simp only [kinList, List.mem_flatMap] at h
        obtain ⟨_, _, _, _, h⟩ := h
        exact absurd (kinCons_less σ _ _ _ c h) hnot
      · simp only [List.mem_flatMap, dynCons, List.mem_append, List.mem_cons, List.not_mem_nil, or_false, List.mem_range] at h
        obtain ⟨n, hn, h | rfl | rfl | rfl⟩ := h
        · exact powerList_shrinks σ hn dr.modules 0 (by omega) hwheel c h
        · exact hineq.elim
        · exact hineq.elim
        · exact hineq.elim
      · simp only [wptList, List.mem_flatMap, List.mem_range] at h
        obtain ⟨w, hw, c', hc', h⟩ := h
        have hlt : waypointSample (table b).counts w < S := by
          have := sum_take_le (table b).counts w
          rw [waypointSample]; omega
        have h1 := hob.instant w (by omega) c' hc'
        have h2 := hi w (by omega) c' hc'
        rw [hst _ hlt] at h1 h2
        exact (apply_shrinks σ hlt c' h1 h2 c h hineq).resolve_left hnot
      · simp only [sgmtList, List.mem_flatMap, List.mem_range] at h
        obtain ⟨s, hs, c', hc', n, hn, h⟩ := h
        rw [List.mem_range'_1, getD_lt hs] at hn
        have hmem : n ∈ segmentSamples (table b).counts s :=
          (mem_segmentSamples hs).mpr ⟨n - 1 - ((table b).counts.take s).sum, by omega, by omega⟩
        have hlt : n < S := by
          have := sum_take_le (table b).counts (s + 1)
          rw [List.sum_take_succ _ _ hs] at this
          omega
        have h1 := hob.continuous s hs c' hc' n hmem
        have h2 := fun hp => hc s hs c' hc' hp n hmem
        rw [hst _ hlt] at h1 h2
        exact (apply_shrinks σ hlt c' h1 h2 c h hineq).resolve_left hnot
    obtain ⟨B, hB, p, hp, hsh⟩ := hshr
    rw [hact, mul_zero, zero_add] at hsh
    have hpow : HasDerivAt (fun k : ℝ => B / k ^ p - B) (-(p * B)) 1 := by
      have h1 := ((hasDerivAt_const (1 : ℝ) B).div (hasDerivAt_pow p (1 : ℝ)) (by simp)).sub_const B
      refine h1.congr_deriv ?_
      simp [mul_comm]
    rw [deriv_eq_of_right ((hcomp c hcm).const_mul (conSign c)) hpow (by
      filter_upwards [eventually_ne_nhds one_ne_zero] with k hk _
      rw [← hsh k hk]
      ring)]
    have : (0 : ℝ) < p := by exact_mod_cast hp
    nlinarith

theorem segment_lt {N : List ℕ} {s n : ℕ} (hs : s < N.length) (hn : n ∈ segmentSamples N s) : n < sampleCount N := by
  obtain ⟨k, hk, rfl⟩ := (mem_segmentSamples hs).mp hn
  have h1 := sum_take_le N (s + 1)
  have h2 := sum_take_succ N hs
  simp only [sampleCount]
  omega

theorem waypoint_lt (N : List ℕ) (w : ℕ) : waypointSample N w < sampleCount N := by
  have := sum_take_le N w
  simp only [waypointSample, sampleCount]
  omega

/-- C124, without a condition on room: at a fastest trajectory the gradient of the cost and those of the active
constraints balance, with multipliers that are not all zero, and not those of equations only.
Missing: corners, and the equations for which `C109_stops_partial` does not show independence. -/
theorem C124_balance_partial (b : Builder ℝ) (dr : SwerveDrivetrain ℝ) (T : Traj) (hT : Fastest b dr T)
    (handle : ℤ) (g : Generator ℝ) (hg : Generator.construct b handle = .ok g)
    (hN : ∀ n ∈ (table b).counts, n < 2 ^ 31)
    (x y θ : ℝ) (hstart : .poseEquality x y θ ∈ (table b).instant 0) (h0 : Stop (.poseEquality x y θ) ((table b).instant 0))
    (hi : ∀ w, 0 < w → w ≤ (table b).counts.length → (∀ c ∈ (table b).instant w, Limiting c) ∨
      2 ≤ (table b).counts.getD (w - 1) 0 ∧ 0 < T.dt (w - 1) ∧
      ((∃ x y θ, .poseEquality x y θ ∈ (table b).instant w ∧ Stop (.poseEquality x y θ) ((table b).instant w)) ∨
        ∃ t, Stop (.translationEquality t) ((table b).instant w)))
    (hc : ∀ s < (table b).counts.length, ∀ c ∈ (table b).continuous s, Limiting c)
    (i j : Fin dr.modules.length) (hij : dr.modules[i].translation ≠ dr.modules[j].translation)
    (hci : ∀ w ≤ (table b).counts.length, ∀ c ∈ (table b).instant w,
      ¬ Corner c (T.state (waypointSample (table b).counts w)))
    (hcc : ∀ s < (table b).counts.length, ∀ c ∈ (table b).continuous s, ∀ n ∈ segmentSamples (table b).counts s,
      ¬ Corner c (T.state n)) :
    ∃ (x : Fin g.problem.nvars → ℝ) (l : ℝ) (m : Con ℝ → ℝ), g.problem.Feasible (ofVec x) ∧
      Traj.Agree (sampleCount (table b).counts) dr.modules.length (table b).counts.length (decode g.vars (ofVec x)) T ∧
      SmoothAt 1 g.problem x ∧ Balanced g.problem x l m ∧
      (l ≠ 0 ∨ ∃ c ∈ g.problem.cons, Inequality c ∧ m c ≠ 0) := by
  have hb := hT.solves.reachable
  have hr := hT.solves.ready
  have hR := hT.solves.radius
  obtain ⟨X, hX, hag⟩ := vector_of hb hr hg hT.solves.obeys
  obtain ⟨e, he, hev⟩ := C42_objective b hb dr hr hN handle g hg
  have obj : ∀ σ, e.eval σ = timeTaken (table b).counts (decode g.vars σ) := by
    intro σ
    rw [(hev σ).1, timeTaken, Finset.sum_range]
    exact Finset.sum_congr rfl fun s _ => by simp
  have htT : timeTaken (table b).counts (decode g.vars (ofVec X)) = timeTaken (table b).counts T := by
    unfold timeTaken
    exact Finset.sum_congr rfl fun s hs => by rw [hag.dt s (Finset.mem_range.mp hs)]
  obtain ⟨g', hg', hf, -, -⟩ := C29_problem b hb dr hr hR handle
  rw [hg] at hg'
  obtain rfl := Except.ok.inj hg'
  have hci' : ∀ w ≤ (table b).counts.length, ∀ c ∈ (table b).instant w,
      ¬ Corner c ((decode g.vars (ofVec X)).state (waypointSample (table b).counts w)) := by
    intro w hw c hcm
    rw [hag.state _ (waypoint_lt _ _)]
    exact hci w hw c hcm
  have hcc' : ∀ s < (table b).counts.length, ∀ c ∈ (table b).continuous s, ∀ n ∈ segmentSamples (table b).counts s,
      ¬ Corner c ((decode g.vars (ofVec X)).state n) := by
    intro s hs c hcm n hn
    rw [hag.state _ (segment_lt hs hn)]
    exact hcc s hs c hcm n hn
  have hsm := C110_smooth_partial b hb dr hr handle g hg X hci' hcc' 1
  obtain ⟨l, m, hB, hP, hne⟩ := balanced_of_minimum g.problem (fun c => ¬ Identity c ∧ ∀ n, 0 < n →
      n < sampleCount (table b).counts → c ≠ headRow dr.modules.length n) X e he
    (fun y hy => C109_norms b hb dr hr handle g hg x _ θ hstart _ fun c hcm hn => by
      by_cases hid : Identity c
      · exact hid _
      · exact hy c hcm ⟨hid, hn⟩) hX
    (fun y hy => by
      rw [obj, obj, htT]
      exact hT.least _ ((solves_iff hb hr hR).mpr ((hf _).mp hy)))
    hsm (cons_defined b hb dr hr handle g hg X hci' hcc')
  refine ⟨X, l, m, hX, hag, hsm, hB, ?_⟩
  by_cases hl : l = 0
  · subst hl
    refine .inr (balance_beyond he hsm (C111_scope b hb dr hr handle g hg) (C109_stops_partial b hb dr hr handle g hg
      (ofVec X) hX x y θ hstart h0 (fun w h1 h2 => ?_) hc i j hij) hB hP (hne.resolve_left fun h => h rfl))
    rw [hag.dt _ (by omega)]
    exact hi w h1 h2
  · exact .inl hl

/-- C124, the positive part: if besides wheels can turn and pull, every segment takes time and less than its cap allows,
and constraints on where the robot is have room, then the fastest trajectory satisfies the conditions that the solver
looks for: there are multipliers with which the gradients of the active constraints balance that of the time.  Some of
them belong to limits, unless no time is taken.
Missing: fastest trajectories without that room, corners, and the equations for which `C109_stops_partial` does not show
independence. -/
theorem C124_multipliers_partial (b : Builder ℝ) (dr : SwerveDrivetrain ℝ) (T : Traj) (hT : Fastest b dr T)
    (handle : ℤ) (g : Generator ℝ) (hg : Generator.construct b handle = .ok g)
    (hN : ∀ n ∈ (table b).counts, n < 2 ^ 31)
    (x y θ : ℝ) (hstart : .poseEquality x y θ ∈ (table b).instant 0) (h0 : Stop (.poseEquality x y θ) ((table b).instant 0))
    (hi : ∀ w, 0 < w → w ≤ (table b).counts.length → (∀ c ∈ (table b).instant w, Limiting c) ∨
      2 ≤ (table b).counts.getD (w - 1) 0 ∧ 0 < T.dt (w - 1) ∧
      ((∃ x y θ, .poseEquality x y θ ∈ (table b).instant w ∧ Stop (.poseEquality x y θ) ((table b).instant w)) ∨
        ∃ t, Stop (.translationEquality t) ((table b).instant w)))
    (hc : ∀ s < (table b).counts.length, ∀ c ∈ (table b).continuous s, Limiting c)
    (i j : Fin dr.modules.length) (hij : dr.modules[i].translation ≠ dr.modules[j].translation)
    (hci : ∀ w ≤ (table b).counts.length, ∀ c ∈ (table b).instant w,
      ¬ Corner c (T.state (waypointSample (table b).counts w)))
    (hcc : ∀ s < (table b).counts.length, ∀ c ∈ (table b).continuous s, ∀ n ∈ segmentSamples (table b).counts s,
      ¬ Corner c (T.state n))
    (hwheel : ∀ m ∈ dr.modules, 0 < maxSpeed m ∧ 0 < maxForce m)
    (htime : ∀ s < (table b).counts.length, 0 < T.dt s)
    (hcap : ∀ s < (table b).counts.length, ∀ m ∈ dr.modules, ∀ gap, Gap dr gap →
      T.dt s * m.wheelRadius * m.wheelMaxAngularVelocity < gap)
    (hri : ∀ w ≤ (table b).counts.length, ∀ c ∈ (table b).instant w, OfPlace c →
      Room c (T.state (waypointSample (table b).counts w)))
    (hrc : ∀ s < (table b).counts.length, ∀ c ∈ (table b).continuous s, OfPlace c →
      ∀ n ∈ segmentSamples (table b).counts s, Room c (T.state n)) :
    ∃ (x : Fin g.problem.nvars → ℝ) (m : Con ℝ → ℝ), g.problem.Feasible (ofVec x) ∧
      Traj.Agree (sampleCount (table b).counts) dr.modules.length (table b).counts.length (decode g.vars (ofVec x)) T ∧
      SmoothAt 1 g.problem x ∧ Balanced g.problem x 1 m ∧
      (0 < timeTaken (table b).counts T → ∃ c ∈ g.problem.cons, Inequality c ∧ m c ≠ 0) := by
  classical
  obtain ⟨X, l, m, hX, hag, hsm, hB, hne⟩ := C124_balance_partial b dr T hT handle g hg hN x y θ hstart h0 hi hc i j hij hci hcc
  have hb := hT.solves.reachable
  have hr := hT.solves.ready
  obtain ⟨e, he, hev⟩ := C42_objective b hb dr hr hN handle g hg
  obtain ⟨d, hdt, hd⟩ := slower_direction b hb dr hr hT.solves.radius hN handle g hg X hX hsm hwheel
    (fun s hs => by rw [hag.dt s hs]; exact htime s hs)
    (fun s hs => by rw [hag.dt s hs]; exact hcap s hs)
    (fun w hw => by rw [hag.state _ (waypoint_lt _ _)]; exact hri w hw)
    (fun s hs c hcm hp n hn => by rw [hag.state _ (segment_lt hs hn)]; exact hrc s hs c hcm hp n hn)
  have hl : l ≠ 0 := by
    rintro rfl
    obtain ⟨c₀, hc₀, hin₀, hm₀⟩ := hne.resolve_left fun h => h rfl
    have hbal := hB.balance e he d
    rw [zero_mul, zero_add] at hbal
    have hneg : ∀ c ∈ g.problem.cons, Inequality c → m c ≠ 0 →
        m c * fderiv ℝ (fun y : Fin g.problem.nvars → ℝ => conFun (ofVec y) c) X d < 0 := by
      intro c hcm hin hmc
      have h1 := (hd c hcm).2 hin (hB.active c hcm hmc)
      cases c with
      | eq a b => exact hin.elim
      | leInf a => exact hin.elim
      | le a b =>
        change (1 : ℝ) * _ < 0 at h1
        rw [one_mul] at h1
        exact mul_neg_of_pos_of_neg (lt_of_le_of_ne (hB.le a b) (Ne.symm hmc)) h1
      | ge a b =>
        change (-1 : ℝ) * _ < 0 at h1
        rw [neg_one_mul, neg_lt_zero] at h1
        exact mul_neg_of_neg_of_pos (lt_of_le_of_ne (hB.ge a b) hmc) h1
    refine absurd hbal (ne_of_lt (Finset.sum_neg' (fun c hcm => ?_) ⟨c₀, List.mem_toFinset.mpr hc₀, hneg c₀ hc₀ hin₀ hm₀⟩))
    rw [List.mem_toFinset] at hcm
    by_cases hmc : m c = 0
    · rw [hmc, zero_mul]
    · by_cases hin : Inequality c
      · exact (hneg c hcm hin hmc).le
      · cases c with
        | eq a b => rw [(hd _ hcm).1 rfl, mul_zero]
        | le a b => exact absurd trivial hin
        | ge a b => exact absurd trivial hin
        | leInf a => exact absurd (hB.unlimited a) hmc
  have hl0 : 0 < l := lt_of_le_of_ne hB.cost (Ne.symm hl)
  refine ⟨X, fun c => m c / l, hX, hag, hsm, ⟨zero_le_one, fun a b => div_nonneg (hB.le a b) hl0.le,
    fun a b => div_nonpos_of_nonpos_of_nonneg (hB.ge a b) hl0.le, fun a => by rw [hB.unlimited, zero_div],
    fun c hcm hmc => hB.active c hcm fun h => hmc (by rw [h, zero_div]), fun e' he' v => ?_⟩, fun hpos => ?_⟩
  · have := hB.balance e' he' v
    rw [one_mul]
    have h2 : ∀ c ∈ g.problem.cons.toFinset, m c / l * fderiv ℝ (fun y : Fin g.problem.nvars → ℝ => conFun (ofVec y) c) X v =
        (m c * fderiv ℝ (fun y : Fin g.problem.nvars → ℝ => conFun (ofVec y) c) X v) / l := fun c _ => by ring
    have h3 : (∑ c ∈ g.problem.cons.toFinset, m c * fderiv ℝ (fun y : Fin g.problem.nvars → ℝ => conFun (ofVec y) c) X v) =
        -(l * fderiv ℝ (fun y : Fin g.problem.nvars → ℝ => e'.eval (ofVec y)) X v) := by
      convert eq_neg_of_add_eq_zero_right this
    convert (show fderiv ℝ (fun y : Fin g.problem.nvars → ℝ => e'.eval (ofVec y)) X v +
      ∑ c ∈ g.problem.cons.toFinset, m c / l * fderiv ℝ (fun y : Fin g.problem.nvars → ℝ => conFun (ofVec y) c) X v = 0 from ?_)
    rw [Finset.sum_congr rfl h2, ← Finset.sum_div, h3]
    field_simp
    ring
  · by_contra hno
    push Not at hno
    have hbal := hB.balance e he d
    have htT : e.eval (ofVec X) = timeTaken (table b).counts T := by
      rw [(hev _).1, timeTaken, Finset.sum_range]
      exact Finset.sum_congr rfl fun s _ => by rw [hag.dt s s.2]; simp
    rw [hdt e he, htT, Finset.sum_eq_zero, add_zero] at hbal
    · exact absurd hbal (mul_pos hl0 hpos).ne'
    · intro c hcm
      rw [List.mem_toFinset] at hcm
      have hz : Inequality c → m c = 0 := fun hin => (div_eq_zero_iff.mp (hno c hcm hin)).resolve_right hl
      cases c with
      | eq a b => rw [(hd _ hcm).1 rfl, mul_zero]
      | le a b => rw [hz trivial, zero_mul]
      | ge a b => rw [hz trivial, zero_mul]
      | leInf a => rw [hB.unlimited a, zero_mul]

/-- C124: the fastest trajectories of the first example program satisfy the conditions, and are held back by a limit. -/
theorem C124_example (asserts : Bool) (T : Traj) (hT : Fastest (run asserts Examples.cpp1 Builder.new) shippedRobot T)
    (g : Generator ℝ) (hg : Generator.construct (run asserts Examples.cpp1 Builder.new) 0 = .ok g) :
    ∃ (x : Fin g.problem.nvars → ℝ) (m : Con ℝ → ℝ), Traj.Agree 41 4 1 (decode g.vars (ofVec x)) T ∧
      Balanced g.problem x 1 m ∧ ∃ c ∈ g.problem.cons, Inequality c ∧ m c ≠ 0 := by
  obtain ⟨hc, hco, hi0, hi1⟩ := cpp1_stored asserts
  have htime := (C85_example asserts Examples.cpp1 (.inl rfl)).2 T hT
  have hdt : T.dt 0 = 3 / √10 / 40 := by
    have := htime
    rw [hc] at this
    simp only [timeTaken, List.length_singleton, Finset.range_one, Finset.sum_singleton, List.getD_cons_zero] at this
    push_cast at this
    linarith
  have h10 : 3 ≤ √10 := Real.le_sqrt_of_sq_le (by norm_num)
  have hpos : 0 < √10 := by linarith
  have h1 : 3 / √10 ≤ 1 := by rw [div_le_one hpos]; exact h10
  have hd0 : 0 < T.dt 0 := by rw [hdt]; positivity
  have hplain : ∀ w ≤ 1, ∀ c ∈ (table (run asserts Examples.cpp1 Builder.new : Builder ℝ)).instant w,
      ¬ OfPlace c ∧ ∀ s, ¬ Corner c s := by
    intro w hw c hcm
    interval_cases w
    · rw [hi0] at hcm
      simp only [List.mem_cons, List.not_mem_nil, or_false] at hcm
      rcases hcm with rfl | rfl <;> exact ⟨fun h => h, fun _ h => h⟩
    · rw [hi1] at hcm
      simp only [List.mem_cons, List.not_mem_nil, or_false] at hcm
      rcases hcm with rfl | rfl <;> exact ⟨fun h => h, fun _ h => h⟩
  have hlen : (table (run asserts Examples.cpp1 Builder.new : Builder ℝ)).counts.length = 1 := by rw [hc]; rfl
  have hempty : ∀ s < (table (run asserts Examples.cpp1 Builder.new : Builder ℝ)).counts.length,
      (table (run asserts Examples.cpp1 Builder.new : Builder ℝ)).continuous s = [] := by
    intro s hs
    rw [hlen, Nat.lt_one_iff] at hs
    rw [hs, hco]
  obtain ⟨x, m, -, hag, -, hB, hlim⟩ := C124_multipliers_partial _ shippedRobot T hT 0 g hg (by rw [hc]; simp) 0 0 0
    (by rw [hi0]; simp) ⟨[], by simp, by rw [hi0]; exact List.Sublist.subperm (by simp)⟩
    (by
      intro w h1 h2
      rw [hlen] at h2
      obtain rfl : w = 1 := by omega
      refine .inr ⟨by rw [hc]; simp, hd0, .inl ⟨1, 0, 0, by rw [hi1]; simp, [], by simp, ?_⟩⟩
      rw [hi1]; exact List.Sublist.subperm (by simp))
    (fun s hs c hcm => by rw [hempty s hs] at hcm; simp at hcm)
    ⟨0, by simp [shippedRobot]⟩ ⟨1, by simp [shippedRobot]⟩ (by norm_num [shippedRobot])
    (fun w hw c hcm => (hplain w (by omega) c hcm).2 _)
    (fun s hs c hcm => by rw [hempty s hs] at hcm; simp at hcm)
    (by
      intro m hm
      simp only [shippedRobot, List.mem_cons, List.not_mem_nil, or_false] at hm
      rcases hm with rfl | rfl | rfl | rfl <;> norm_num [maxSpeed, maxForce])
    (by
      intro s hs
      rw [hlen, Nat.lt_one_iff] at hs
      rwa [hs])
    (by
      intro s hs m hm gap hgap
      rw [hlen, Nat.lt_one_iff] at hs
      rw [shipped_gap gap hgap, hs, hdt]
      simp only [shippedRobot, List.mem_cons, List.not_mem_nil, or_false] at hm
      rcases hm with rfl | rfl | rfl | rfl <;> norm_num <;> linarith)
    (fun w hw c hcm hp => absurd hp (hplain w (by omega) c hcm).1)
    (fun s hs c hcm => by rw [hempty s hs] at hcm; simp at hcm)
  rw [hc] at hag
  exact ⟨x, m, hag, hB, hlim (by rw [htime]; positivity)⟩

/-- Such a trajectory and such a problem exist. -/
example (asserts : Bool) : ∃ (T : Traj) (g : Generator ℝ), Fastest (run asserts Examples.cpp1 Builder.new) shippedRobot T ∧
    Generator.construct (run asserts Examples.cpp1 Builder.new) 0 = .ok g := by
  obtain ⟨⟨T, hT⟩, -⟩ := C85_example asserts Examples.cpp1 (.inl rfl)
  obtain ⟨g, hg, -⟩ := C29_problem _ hT.solves.reachable shippedRobot hT.solves.ready hT.solves.radius 0
  exact ⟨T, g, hT, hg⟩

end Trajopt.Props
