import Verif.Props.Ieee
import Verif.Props.Exact

/-!
# C119: robots whose numbers are rounded
-/

set_option autoImplicit false

namespace Trajopt.Props

open Trajopt.Spec Trajopt.Ieee

/-! ### How far a step goes -/

variable {A : Arith}

theorem looseSq_le {V : ℝ} (hV0 : 0 < V) (h1 : A.η ≤ V / 8) (h2 : A.η ≤ V ^ 2) : looseSq A V ≤ (2 * V) ^ 2 := by
  have hu0 := A.u_nonneg
  have hu : A.u ≤ 1 / 8 := A.small.trans (by norm_num)
  have hη := Doubles.eta_nonneg A
  have h3 : (1 + A.u) * V + A.η ≤ 5 / 4 * V := by nlinarith
  have h4 : ((1 + A.u) * V + A.η) ^ 2 ≤ (5 / 4 * V) ^ 2 := pow_le_pow_left₀ (by positivity) h3 2
  rw [looseSq]
  nlinarith [sq_nonneg V, mul_nonneg hu0 (sq_nonneg ((1 + A.u) * V + A.η))]

theorem norm_heading {dt : ℝ} {a c : State} (h : Interval dt a c) (ha : ‖a.heading‖ = 1) : ‖c.heading‖ = 1 := by
  have hu : ∀ θ, ‖unitVec θ‖ = 1 := fun θ => by rw [unitVec]; exact Complex.norm_exp_ofReal_mul_I θ
  rcases turn_step h ha with e | e <;> rw [e] <;> simp [ha, hu]

theorem step_le_gap {t : PathTable (Doubles A)} {dr : SwerveDrivetrain (Doubles A)} {T : Traj}
    (h : ObeysLoosely t dr T) {s n : ℕ} (hs : s < t.counts.length) (hn : n ∈ segmentSamples t.counts s)
    (hn' : n < sampleCount t.counts) (hh : ‖(T.state n).heading‖ = 1)
    {m m' : SwerveModule ℝ} (hm : m ∈ (robotVal dr).modules) (hm' : m' ∈ (robotVal dr).modules)
    (hopp : vec m'.translation = -vec m.translation) {V : ℝ} (hV : m.wheelRadius * m.wheelMaxAngularVelocity = V)
    (hV' : m'.wheelRadius * m'.wheelMaxAngularVelocity = V) (hV0 : 0 < V) (h1 : A.η ≤ V / 8) (h2 : A.η ≤ V ^ 2)
    {g : ℝ} (hg : Gap (robotVal dr) g) (hgη : A.η < (1 - A.u) * g) :
    dist (T.state (n - 1)).pos (T.state n).pos ≤ 4 * g := by
  have hi := h.interval s hs n hn
  have hd := h.dynamics n hn'
  have hdt := h.time s hs
  have hc := h.stepCap s hs m hm g hg hgη
  have hu0 := A.u_nonneg
  have hu : A.u ≤ 1 / 8 := A.small.trans (by norm_num)
  have hη := Doubles.eta_nonneg A
  have hsp : ∀ k ∈ (robotVal dr).modules, k.wheelRadius * k.wheelMaxAngularVelocity = V →
      ‖wheelVelocity (T.state n) k‖ ≤ 2 * V := fun k hk e => by
    have := hd.speed k hk
    rw [maxSpeed, e, abs_of_pos hV0] at this
    exact le_of_sq_le_sq (this.trans (looseSq_le hV0 h1 h2)) (by positivity)
  have hv : ‖(T.state n).vel‖ ≤ 2 * V := by
    have e : 2 * ((starRingEnd ℂ) (T.state n).heading * (T.state n).vel) =
        wheelVelocity (T.state n) m + wheelVelocity (T.state n) m' := by
      rw [wheelVelocity, wheelVelocity, hopp]; ring
    have e2 := congrArg norm e
    rw [norm_mul, norm_mul, Complex.norm_conj, hh, one_mul, Complex.norm_ofNat] at e2
    have := norm_add_le (wheelVelocity (T.state n) m) (wheelVelocity (T.state n) m')
    have := hsp m hm hV
    have := hsp m' hm' hV'
    linarith
  have hgpos : 0 < g := by
    by_contra hneg
    have : (1 - A.u) * g ≤ 0 := mul_nonpos_of_nonneg_of_nonpos (by linarith) (not_lt.mp hneg)
    linarith
  rw [dist_comm, dist_eq_norm, hi.pos, add_sub_cancel_left, norm_mul, Complex.norm_real, Real.norm_of_nonneg hdt]
  rw [mul_assoc, hV] at hc
  calc T.dt s * ‖(T.state n).vel‖ ≤ T.dt s * (2 * V) := mul_le_mul_of_nonneg_left hv hdt
    _ ≤ 4 * g := by nlinarith

/-! ### Programs with IEEE doubles -/

theorem grid (a : Ieee) : ∃ k : ℤ, a.value = k * 2 ^ (-1074 : ℤ) := by
  have h : ∀ x, ∃ k : ℤ, rnd64 x = k * 2 ^ (-1074 : ℤ) := fun x => by
    obtain ⟨j, hj⟩ : ∃ j : ℕ, ulpExp x = -1074 + j := ⟨(ulpExp x + 1074).toNat, by
      have : -1074 ≤ ulpExp x := le_max_right _ _
      omega⟩
    refine ⟨rne (x / 2 ^ ulpExp x) * 2 ^ j, ?_⟩
    rw [rnd64, hj, zpow_add₀ two_ne_zero, zpow_natCast]
    push_cast
    ring
  cases a with
  | fin s m hm =>
    obtain ⟨k, hk⟩ := h m
    rw [hm.2.1] at hk
    cases s
    · exact ⟨k, hk⟩
    · exact ⟨-k, by change -m = _; rw [hk]; push_cast; ring⟩
  | inf s => exact ⟨0, by simp [value]⟩
  | nan => exact ⟨0, by simp [value]⟩

/-- Two different doubles are not too close for the step cap. -/
theorem apart_of_ne {a b : Ieee} (h : a.value ≠ b.value) : binary64.η < (1 - binary64.u) * |a.value - b.value| := by
  obtain ⟨i, hi⟩ := grid a
  obtain ⟨j, hj⟩ := grid b
  have hne : i - j ≠ 0 := fun e => h (by rw [hi, hj, sub_eq_zero.mp e])
  have h1 : (1 : ℝ) ≤ |((i - j : ℤ) : ℝ)| := by
    rw [← Int.cast_abs]
    exact_mod_cast Int.one_le_abs hne
  have e : |a.value - b.value| = |((i - j : ℤ) : ℝ)| * 2 ^ (-1074 : ℤ) := by
    rw [hi, hj, ← sub_mul, abs_mul, abs_of_pos (zpow_pos2 _)]
    push_cast
    rfl
  have e' : binary64.η = 2 ^ (-1074 : ℤ) / 2 := by
    change (2 : ℝ) ^ (-1075 : ℤ) = _
    rw [show (-1075 : ℤ) = -1074 - 1 by norm_num, zpow_sub_one₀ two_ne_zero]
    rfl
  have hu : binary64.u ≤ 1 / 8 := binary64.small.trans (by norm_num)
  rw [e, e']
  have hp : (0 : ℝ) < 2 ^ (-1074 : ℤ) := zpow_pos2 _
  generalize (2 : ℝ) ^ (-1074 : ℤ) = p at *
  calc p / 2 < 7 / 8 * (1 * p) := by linarith
    _ ≤ (1 - binary64.u) * (|((i - j : ℤ) : ℝ)| * p) := by
      have : 7 / 8 ≤ 1 - binary64.u := by linarith
      gcongr

theorem instant_mapD (b : Builder Ieee) (w : ℕ) :
    (table (b.mapD plain)).instant w = ((table b).instant w).map (Constraint.mapD plain) := by
  simp only [table, Builder.mapD, SwervePath.mapD]
  rw [List.getD_eq_getElem?_getD, List.getD_eq_getElem?_getD, List.getElem?_map]
  cases b.path.waypoints[w]? <;> rfl

/-- C119: however many control intervals a path has, the robot gets nowhere if two neighbouring modules are out of line
by a rounding error: one control interval takes it no further than four times that. -/
theorem C119_slow (asserts : Bool) (ops : List (Op Ieee)) (h : Moderate ops) (dr : SwerveDrivetrain Ieee)
    (hr : Ready (run asserts ops Builder.new) dr) (hradius : RadiiNotTiny dr)
    (x y θ : Ieee) (hpose : .poseEquality x y θ ∈ (table (run asserts ops Builder.new)).instant 0)
    (m m' : SwerveModule Ieee) (hm : m ∈ dr.modules) (hm' : m' ∈ dr.modules)
    (hx : m'.translation.x.value = -m.translation.x.value) (hy : m'.translation.y.value = -m.translation.y.value)
    (V : ℝ) (hV : m.wheelRadius.value * m.wheelMaxAngularVelocity.value = V)
    (hV' : m'.wheelRadius.value * m'.wheelMaxAngularVelocity.value = V) (hV0 : 2 ^ (-500 : ℤ) ≤ V)
    (a b : SwerveModule Ieee) (hab : (a, b) ∈ dr.modules.zip dr.modules.tail)
    (d : ℝ) (hd0 : d ≠ 0) (hd : d = |a.translation.x.value - b.translation.x.value| ∨
      d = |a.translation.y.value - b.translation.y.value|) (handle : ℤ) :
    ∃ g, Generator.construct (run asserts ops Builder.new) handle = .ok g ∧
      ∀ σ : ℕ → ℝ, (∀ c ∈ g.problem.cons, (c.map value).Holds σ) →
        ∀ n < sampleCount (table (run asserts ops Builder.new)).counts,
          dist ((decode g.vars σ).state 0).pos ((decode g.vars σ).state n).pos ≤ 4 * n * d := by
  obtain ⟨g, hg, hσ⟩ := C96_guaranteed asserts ops h dr hr hradius handle
  refine ⟨g, hg, fun σ hs => ?_⟩
  have ho := hσ σ hs
  generalize run asserts ops Builder.new = bd at *
  generalize decode g.vars σ = T at *
  have hc : (table (bd.mapD plain)).counts = (table bd).counts := rfl
  have hmem : ∀ k ∈ dr.modules, moduleVal (k.mapD plain) ∈ (robotVal (dr.mapD plain)).modules := fun k hk =>
    List.mem_map_of_mem (List.mem_map_of_mem hk)
  have hzip : ∀ (l : List (SwerveModule Ieee)) (f : SwerveModule Ieee → SwerveModule ℝ) , (a, b) ∈ l.zip l.tail →
      (f a, f b) ∈ (l.map f).zip (l.map f).tail := fun l f hl => by
    rw [← List.map_tail, List.zip_map]
    exact List.mem_map.mpr ⟨(a, b), hl, rfl⟩
  have hgη : binary64.η < (1 - binary64.u) * d := by
    rcases hd with e | e <;> rw [e] <;>
      exact apart_of_ne fun e' => hd0 (by rw [e, e', sub_self, abs_zero])
  have hgap : Gap (robotVal (dr.mapD plain)) d := by
    refine ⟨hd0, moduleVal (a.mapD plain), moduleVal (b.mapD plain), ?_, hd⟩
    have := hzip dr.modules (fun k => moduleVal (k.mapD plain)) hab
    have e : (robotVal (dr.mapD plain)).modules = dr.modules.map fun k => moduleVal (k.mapD plain) := by
      change (dr.modules.map _).map _ = _
      rw [List.map_map]; rfl
    rw [e]
    exact this
  have hVpos : 0 < V := (zpow_pos2 _).trans_le hV0
  have h8 : binary64.η ≤ V / 8 := by
    have : (2 : ℝ) ^ (-1075 : ℤ) ≤ 2 ^ (-500 : ℤ) / 8 := by
      rw [show (2 : ℝ) ^ (-500 : ℤ) / 8 = 2 ^ (-503 : ℤ) by
        rw [show (8 : ℝ) = 2 ^ (3 : ℤ) by norm_num, ← zpow_sub₀ two_ne_zero]; norm_num]
      exact zpow_le_zpow_right₀ (by norm_num) (by norm_num)
    exact this.trans (by linarith)
  have h2 : binary64.η ≤ V ^ 2 := by
    have e : ((2 : ℝ) ^ (-500 : ℤ)) ^ 2 = 2 ^ (-1000 : ℤ) := by
      rw [← zpow_natCast, ← zpow_mul]; norm_num
    have : (2 : ℝ) ^ (-1075 : ℤ) ≤ 2 ^ (-1000 : ℤ) := zpow_le_zpow_right₀ (by norm_num) (by norm_num)
    exact this.trans (e ▸ pow_le_pow_left₀ (zpow_pos2 _).le hV0 2)
  have h0 : ‖(T.state 0).heading‖ = 1 := by
    have := ho.instant 0 (Nat.zero_le _) ((Constraint.poseEquality x y θ).mapD plain) 
      (by rw [instant_mapD]; exact List.mem_map_of_mem hpose)
    exact this.2.1
  intro n hn
  have key : ‖(T.state n).heading‖ = 1 ∧ dist (T.state 0).pos (T.state n).pos ≤ 4 * n * d := by
    induction n with
    | zero => exact ⟨h0, by simp⟩
    | succ n ih =>
      obtain ⟨i1, i2⟩ := ih (by omega)
      obtain ⟨s, hs, hns⟩ := segment_of_sample (Nat.succ_pos n) hn
      have hh := norm_heading (ho.interval s hs (n + 1) hns) i1
      refine ⟨hh, ?_⟩
      have hst := step_le_gap ho hs hns hn hh (hmem m hm) (hmem m' hm')
        (by simp only [vec, moduleVal, Complex.ext_iff, Complex.neg_re, Complex.neg_im]; exact ⟨hx, hy⟩)
        hV hV' hVpos h8 h2 hgap hgη
      rw [Nat.succ_eq_add_one, Nat.add_sub_cancel] at hst
      have := dist_triangle (T.state 0).pos (T.state n).pos (T.state (n + 1)).pos
      push_cast
      linarith
  exact key.2

/-! ### 0.1 + 0.2 -/

/-- Four modules at 30 cm, two of them at `±w`. -/
noncomputable def tenthRobot (w : Ieee) : SwerveDrivetrain Ieee :=
  ⟨Num.lit 60, Num.lit 6, [⟨⟨w, Num.lit (3 / 10)⟩, Num.lit (1 / 20), Num.lit 70, Num.lit 2⟩,
    ⟨⟨Num.lit (3 / 10), -Num.lit (3 / 10)⟩, Num.lit (1 / 20), Num.lit 70, Num.lit 2⟩,
    ⟨⟨-Num.lit (3 / 10), Num.lit (3 / 10)⟩, Num.lit (1 / 20), Num.lit 70, Num.lit 2⟩,
    ⟨⟨-w, -Num.lit (3 / 10)⟩, Num.lit (1 / 20), Num.lit 70, Num.lit 2⟩]⟩

/-- One metre ahead, in `N` control intervals. -/
noncomputable def tenthProgram (w : Ieee) (N : ℕ) : List (Op Ieee) :=
  [.setDrivetrain (tenthRobot w), .poseWpt 0 (Num.lit 0) (Num.lit 0) (Num.lit 0),
    .poseWpt 1 (Num.lit 1) (Num.lit 0) (Num.lit 0), .controlIntervalCounts [N]]

theorem tenth_table (w : Ieee) (N : ℕ) (hN : N < 2 ^ 60) :
    Ready (run true (tenthProgram w N) Builder.new) (tenthRobot w) ∧
    (table (run true (tenthProgram w N) Builder.new)).counts = [N] ∧
    (table (run true (tenthProgram w N) Builder.new)).instant 0 = [.poseEquality (Num.lit 0) (Num.lit 0) (Num.lit 0)] ∧
    (table (run true (tenthProgram w N) Builder.new)).instant 1 = [.poseEquality (Num.lit 1) (Num.lit 0) (Num.lit 0)] ∧
    (table (run true (tenthProgram w N) Builder.new)).continuous 0 = [] := by
  have h : PathTable.AcceptsAll true PathTable.empty (tenthProgram w N) := by
    simp [tenthProgram, PathTable.AcceptsAll, PathTable.Accepts]
  have e := (C81_history true _ h).1
  refine ⟨⟨?_, ?_, ?_⟩, ?_, ?_, ?_, ?_⟩ <;> rw [e] <;>
    simp [tenthProgram, PathTable.afterAll, PathTable.after, PathTable.reach, PathTable.requireAt,
      PathTable.guessAt, PathTable.empty, sampleCount]
  omega

theorem tenth_moderate {w : Ieee} (hw : Fits 250 w) (N : ℕ) : Moderate (tenthProgram w N) := by
  have h3 : Fits 250 (Num.lit (3 / 10)) := fits_number (by norm_num [abs_le])
  simp only [Moderate, tenthProgram, tenthRobot, List.mem_cons, List.not_mem_nil, or_false, forall_eq_or_imp, forall_eq,
    Op.data, SwerveDrivetrain.data, Translation2.data, List.flatMap_cons, List.flatMap_nil,
    List.append_nil, List.cons_append, List.nil_append]
  have hq : ∀ q : ℚ, |(q : ℝ)| ≤ 2 ^ (20 : ℤ) → Fits 250 (Num.lit q) := fun q h => fits_number h
  refine ⟨⟨?_, ?_, ?_, ?_, ?_, hw, h3, ?_, ?_, ?_, h3, fits_neg h3, ?_, ?_, ?_, fits_neg h3, h3, ?_, ?_, ?_, fits_neg hw,
    fits_neg h3⟩, ⟨?_, ?_, ?_⟩, ⟨?_, ?_, ?_⟩, fun d hd => hd.elim⟩ <;>
    exact hq _ (by norm_num [abs_le])

theorem tenth_radius (w : Ieee) : RadiiNotTiny (tenthRobot w) := by
  intro m hm
  have : m.wheelRadius = Num.lit (1 / 20) := by
    simp only [tenthRobot, List.mem_cons, List.not_mem_nil, or_false] at hm
    rcases hm with rfl | rfl | rfl | rfl <;> rfl
  rw [this]
  exact ieee_radius _ List.mem_cons_self

theorem lit_value {q : ℚ} (h : |(q : ℝ)| ≤ 2 ^ (20 : ℤ)) : (Num.lit q : Ieee).value = rnd64 q :=
  (fits_lit h (by norm_num) (by norm_num)).2

/-- Rounding halfway between two doubles. -/
theorem rnd64_tie {x : ℝ} {m e : ℤ} (he : -1074 ≤ e) (h1 : 2 ^ (e + 52) ≤ x) (h2 : x < 2 ^ (e + 53)) (hm : Even m)
    (h : x = (m - 1 / 2) * 2 ^ e) : rnd64 x = m * 2 ^ e := by
  have hx : 0 < x := (zpow_pos2 _).trans_le h1
  have hl : Int.log 2 |x| = e + 52 := by
    rw [abs_of_pos hx]
    apply le_antisymm
    · have : Int.log 2 x < e + 53 := (Int.lt_zpow_iff_log_lt (b := 2) (by norm_num) hx).mp (by exact_mod_cast h2)
      omega
    · exact (Int.zpow_le_iff_le_log (b := 2) (by norm_num) hx).mp (by exact_mod_cast h1)
  have hu : ulpExp x = e := by rw [ulpExp, hl]; omega
  rw [rnd64, hu]
  congr 2
  have hq : x / 2 ^ e = (m - 1 : ℤ) + 1 / 2 := by
    rw [h, mul_div_cancel_right₀ _ (zpow_pos2 e).ne']
    push_cast
    ring
  have hf : ⌊x / 2 ^ e⌋ = m - 1 := by
    rw [hq, Int.floor_intCast_add, show ⌊(1 / 2 : ℝ)⌋ = 0 by norm_num, add_zero]
  have hfr : Int.fract (x / 2 ^ e) = 1 / 2 := by
    rw [Int.fract, hf, hq]; ring
  rw [rne, hfr, hf, if_neg (lt_irrefl _), if_neg (lt_irrefl _), if_neg]
  · ring
  · rw [Int.even_sub_one, not_not]
    exact hm

/-- The doubles 0.1, 0.2 and 0.3, and the sum of the first two. -/
theorem tenths : (Num.lit (1 / 10) : Ieee).value = 7205759403792794 * 2 ^ (-56 : ℤ) ∧
    (Num.lit (1 / 5) : Ieee).value = 7205759403792794 * 2 ^ (-55 : ℤ) ∧
    (Num.lit (3 / 10) : Ieee).value = 5404319552844595 * 2 ^ (-54 : ℤ) ∧
    (Num.lit (1 / 10) + Num.lit (1 / 5) : Ieee).value = 5404319552844596 * 2 ^ (-54 : ℤ) := by
  have h1 : (Num.lit (1 / 10) : Ieee).value = 7205759403792794 * 2 ^ (-56 : ℤ) := by
    rw [lit_value (by norm_num [abs_le])]
    have := rnd64_eq (x := 1 / 10) (m := 7205759403792794) (e := -56) (by norm_num) (by norm_num) (by norm_num)
      (by rw [abs_lt]; norm_num)
    push_cast at this ⊢
    exact this
  have h2 : (Num.lit (1 / 5) : Ieee).value = 7205759403792794 * 2 ^ (-55 : ℤ) := by
    rw [lit_value (by norm_num [abs_le])]
    have := rnd64_eq (x := 1 / 5) (m := 7205759403792794) (e := -55) (by norm_num) (by norm_num) (by norm_num)
      (by rw [abs_lt]; norm_num)
    push_cast at this ⊢
    exact this
  have h3 : (Num.lit (3 / 10) : Ieee).value = 5404319552844595 * 2 ^ (-54 : ℤ) := by
    rw [lit_value (by norm_num [abs_le])]
    have := rnd64_eq (x := 3 / 10) (m := 5404319552844595) (e := -54) (by norm_num) (by norm_num) (by norm_num)
      (by rw [abs_lt]; norm_num)
    push_cast at this ⊢
    exact this
  refine ⟨h1, h2, h3, ?_⟩
  rw [(fits_add (fits_number (q := 1 / 10) (by norm_num [abs_le])) (fits_number (q := 1 / 5) (by norm_num [abs_le]))
    (by norm_num) (by norm_num)).2, h1, h2]
  have := rnd64_tie (x := 7205759403792794 * 2 ^ (-56 : ℤ) + 7205759403792794 * 2 ^ (-55 : ℤ)) (m := 5404319552844596)
    (e := -54) (by norm_num) (by norm_num) (by norm_num) (by decide) (by norm_num)
  rw [this]
  norm_num

/-- C119: a robot with a module at 0.1 + 0.2 in line with one at 0.3 cannot drive a metre, with any number of
control intervals up to 2^50. -/
theorem C119_stuck (N : ℕ) (hN : N ≤ 2 ^ 50) (handle : ℤ) :
    ∃ g, Generator.construct (run true (tenthProgram (Num.lit (1 / 10) + Num.lit (1 / 5)) N) Builder.new) handle = .ok g ∧
      ¬ ∃ σ : ℕ → ℝ, ∀ c ∈ g.problem.cons, (c.map value).Holds σ := by
  obtain ⟨t1, t2, t3, t4⟩ := tenths
  have hw : Fits 250 (Num.lit (1 / 10) + Num.lit (1 / 5)) :=
    (fits_add (fits_lit (q := 1 / 10) (k := 0) (by norm_num [abs_le]) (by norm_num) (by norm_num)).1
      (fits_lit (q := 1 / 5) (k := 0) (by norm_num [abs_le]) (by norm_num) (by norm_num)).1
      (by norm_num) (by norm_num)).1.mono (by norm_num)
  have hmod := tenth_moderate hw N
  have hrad := tenth_radius (Num.lit (1 / 10) + Num.lit (1 / 5))
  obtain ⟨h1, h2, h3, h4, h5⟩ := tenth_table (Num.lit (1 / 10) + Num.lit (1 / 5)) N (by omega)
  have hr : (2 : ℝ) ^ (-5 : ℤ) ≤ (Num.lit (1 / 20) : Ieee).value := by
    rw [lit_value (by norm_num [abs_le])]
    exact rnd64_zpow_le (by norm_num) (by norm_num)
  have h70 : (Num.lit 70 : Ieee).value = 70 := by
    rw [lit_value (by norm_num)]
    exact_mod_cast rnd64_int 70 (by norm_num)
  obtain ⟨g, hg, hσ⟩ := C119_slow true _ hmod _ h1 hrad _ _ _ (by rw [h3]; exact List.mem_singleton_self _)
    ⟨⟨Num.lit (3 / 10), -Num.lit (3 / 10)⟩, Num.lit (1 / 20), Num.lit 70, Num.lit 2⟩
    ⟨⟨-Num.lit (3 / 10), Num.lit (3 / 10)⟩, Num.lit (1 / 20), Num.lit 70, Num.lit 2⟩
    (by simp [tenthRobot]) (by simp [tenthRobot])
    (finite_neg (fits_number (q := 3 / 10) (by norm_num [abs_le])).1).2
    (by rw [(finite_neg (fits_number (q := 3 / 10) (by norm_num [abs_le])).1).2, neg_neg]) _ rfl rfl
    (by
      dsimp only
      rw [h70]
      calc (2 : ℝ) ^ (-500 : ℤ) ≤ 2 ^ (-5 : ℤ) := zpow_le_zpow_right₀ (by norm_num) (by norm_num)
        _ ≤ _ := by linarith [zpow_pos2 (-5)])
    ⟨⟨Num.lit (1 / 10) + Num.lit (1 / 5), Num.lit (3 / 10)⟩, Num.lit (1 / 20), Num.lit 70, Num.lit 2⟩
    ⟨⟨Num.lit (3 / 10), -Num.lit (3 / 10)⟩, Num.lit (1 / 20), Num.lit 70, Num.lit 2⟩
    (by simp [tenthRobot]) _ (by dsimp only; rw [t3, t4]; norm_num) (.inl rfl) handle
  refine ⟨g, hg, ?_⟩
  rintro ⟨σ, hs⟩
  have hd := hσ σ hs N (by rw [h2]; simp [sampleCount])
  obtain ⟨g', hg', ho⟩ := C96_guaranteed true _ hmod _ h1 hrad handle
  rw [hg] at hg'
  obtain rfl := Except.ok.inj hg'
  have ho := ho σ hs
  generalize run true (tenthProgram (Num.lit (1 / 10) + Num.lit (1 / 5)) N) Builder.new = b at *
  generalize decode g.vars σ = T at *
  have hc : (table (b.mapD plain)).counts = [N] := h2
  have i0 := ho.instant 0 (Nat.zero_le _) ((Constraint.poseEquality (Num.lit 0) (Num.lit 0) (Num.lit 0)).mapD plain)
    (by rw [instant_mapD, h3]; simp)
  have i1 := ho.instant 1 (by rw [hc]; simp)
    ((Constraint.poseEquality (Num.lit 1) (Num.lit 0) (Num.lit 0)).mapD plain) (by rw [instant_mapD, h4]; simp)
  rw [show waypointSample (table (b.mapD plain)).counts 0 = 0 from rfl] at i0
  rw [show waypointSample (table (b.mapD plain)).counts 1 = N by rw [hc]; simp [waypointSample]] at i1
  have v0 : (Num.lit 0 : Ieee).value = 0 := by
    rw [lit_value (by norm_num)]
    exact_mod_cast rnd64_int 0 (by norm_num)
  have v1 : (Num.lit 1 : Ieee).value = 1 := by
    rw [lit_value (by norm_num)]
    exact_mod_cast rnd64_int 1 (by norm_num)
  have e0 : (T.state 0).pos = ⟨(Num.lit 0 : Ieee).value, (Num.lit 0 : Ieee).value⟩ := i0.1
  have e1 : (T.state N).pos = ⟨(Num.lit 1 : Ieee).value, (Num.lit 0 : Ieee).value⟩ := i1.1
  rw [v0] at e0
  rw [v0, v1] at e1
  have e : dist (T.state 0).pos (T.state N).pos = 1 := by
    rw [e0, e1, Complex.dist_eq, show (⟨0, 0⟩ : ℂ) - ⟨1, 0⟩ = -1 by simp [Complex.ext_iff], norm_neg, norm_one]
  dsimp only at hd
  rw [e, t3, t4] at hd
  have hNr : (N : ℝ) ≤ 1125899906842624 := by exact_mod_cast hN
  norm_num at hd
  linarith

theorem near_lit {q : ℚ} (h0 : 0 ≤ q) (h1 : q ≤ 1) : |(Num.lit q : Ieee).value - q| ≤ 1 / 10 ^ 9 := by
  have h0' : (0 : ℝ) ≤ q := by exact_mod_cast h0
  have h1' : (q : ℝ) ≤ 1 := by exact_mod_cast h1
  rw [lit_value (by rw [abs_of_nonneg h0']; exact h1'.trans (by norm_num))]
  refine (rnd64_error q).trans ?_
  rw [abs_of_nonneg h0']
  have : (2 : ℝ) ^ (-1075 : ℤ) ≤ 2 ^ (-53 : ℤ) := zpow_le_zpow_right₀ (by norm_num) (by norm_num)
  generalize (2 : ℝ) ^ (-1075 : ℤ) = t at *
  norm_num at this ⊢
  linarith

theorem tightSq_ge {x : ℝ} (hx : 1 ≤ x) (hη : A.η ≤ 1 / 100) : 9 / 10 * x ^ 2 ≤ tightSq A x := by
  have hu0 := A.u_nonneg
  have hu : A.u ≤ 1 / 100 := A.small.trans (by norm_num)
  have h1 : 98 / 100 * x ≤ (1 - A.u) * x - A.η := by nlinarith
  have h2 : 98 / 100 * x ≤ max 0 ((1 - A.u) * x - A.η) := h1.trans (le_max_right _ _)
  have h3 : (98 / 100 * x) ^ 2 ≤ max 0 ((1 - A.u) * x - A.η) ^ 2 := pow_le_pow_left₀ (by positivity) h2 2
  rw [tightSq]
  nlinarith [mul_le_mul_of_nonneg_left h3 (show (0 : ℝ) ≤ 1 - A.u by linarith)]

theorem continuous_mapD (b : Builder Ieee) (s : ℕ) :
    (table (b.mapD plain)).continuous s = ((table b).continuous s).map (Constraint.mapD plain) := by
  simp only [table, Builder.mapD, SwervePath.mapD]
  rw [List.getD_eq_getElem?_getD, List.getD_eq_getElem?_getD, List.getElem?_map]
  cases b.path.waypoints[s + 1]? <;> rfl

/-- At three metres per second. -/
noncomputable def metreTraj (N : ℕ) : Traj where
  state n := ⟨n / N, 1, 3, 0, 0, 0⟩
  force _ _ := 0
  dt _ := 1 / (3 * N)

/-- C119: with that module at 0.3 it can, with any number of control intervals from two on. -/
theorem C119_moves (N : ℕ) (hN2 : 2 ≤ N) (hN : N < 2 ^ 60) (handle : ℤ) :
    ∃ g, Generator.construct (run true (tenthProgram (Num.lit (3 / 10)) N) Builder.new) handle = .ok g ∧
      ∃ σ : ℕ → ℝ, ∀ c ∈ g.problem.cons, (c.map value).Holds σ := by
  have hw : Fits 250 (Num.lit (3 / 10)) := fits_number (by norm_num [abs_le])
  obtain ⟨h1, h2, h3, h4, h5⟩ := tenth_table (Num.lit (3 / 10)) N hN
  obtain ⟨g, hg, he⟩ := C96_enough true _ (tenth_moderate hw N) _ h1 (tenth_radius _) handle
  refine ⟨g, hg, ?_⟩
  suffices h : ObeysTightly (table ((run true (tenthProgram (Num.lit (3 / 10)) N) Builder.new).mapD plain))
      ((tenthRobot (Num.lit (3 / 10))).mapD plain) (metreTraj N) by
    obtain ⟨σ, hσ, -⟩ := he _ h
    exact ⟨σ, hσ⟩
  have hNr : (2 : ℝ) ≤ N := by exact_mod_cast hN2
  have hNc : (N : ℂ) ≠ 0 := by exact_mod_cast (show N ≠ 0 by omega)
  clear he hg h1
  generalize run true (tenthProgram (Num.lit (3 / 10)) N) Builder.new = b at *
  have hc : (table (b.mapD plain)).counts = [N] := h2
  have hi := instant_mapD b
  have v0 : (Num.lit 0 : Ieee).value = 0 := by
    rw [lit_value (by norm_num)]
    exact_mod_cast rnd64_int 0 (by norm_num)
  have v1 : (Num.lit 1 : Ieee).value = 1 := by
    rw [lit_value (by norm_num)]
    exact_mod_cast rnd64_int 1 (by norm_num)
  have h70 : (Num.lit 70 : Ieee).value = 70 := by
    rw [lit_value (by norm_num)]
    exact_mod_cast rnd64_int 70 (by norm_num)
  obtain ⟨r1, r2⟩ := abs_le.mp (near_lit (q := 1 / 20) (by norm_num) (by norm_num))
  obtain ⟨s1, s2⟩ := abs_le.mp (near_lit (q := 3 / 10) (by norm_num) (by norm_num))
  obtain ⟨-, n3⟩ := finite_neg (fits_number (q := 3 / 10) (by norm_num [abs_le])).1
  have hmod : ∀ m ∈ (robotVal ((tenthRobot (Num.lit (3 / 10))).mapD plain)).modules,
      m.wheelRadius = (Num.lit (1 / 20) : Ieee).value ∧ m.wheelMaxAngularVelocity = (Num.lit 70 : Ieee).value := by
    intro m hm
    simp only [robotVal, SwerveDrivetrain.mapD, tenthRobot, List.map_cons, List.map_nil, List.mem_cons,
      List.not_mem_nil, or_false] at hm
    rcases hm with rfl | rfl | rfl | rfl <;> exact ⟨rfl, rfl⟩
  have htor : ∀ m ∈ (robotVal ((tenthRobot (Num.lit (3 / 10))).mapD plain)).modules, m.wheelMaxTorque = 2 := by
    intro m hm
    have v2 : (Num.lit 2 : Ieee).value = 2 := by
      rw [lit_value (by norm_num)]
      exact_mod_cast rnd64_int 2 (by norm_num)
    simp only [robotVal, SwerveDrivetrain.mapD, tenthRobot, List.map_cons, List.map_nil, List.mem_cons,
      List.not_mem_nil, or_false] at hm
    rcases hm with rfl | rfl | rfl | rfl <;> exact v2
  have hgap : ∀ g, Gap (robotVal ((tenthRobot (Num.lit (3 / 10))).mapD plain)) g →
      g = 2 * (Num.lit (3 / 10) : Ieee).value := by
    rintro g ⟨hne, p, q, hpq, hg⟩
    simp only [robotVal, SwerveDrivetrain.mapD, tenthRobot, List.map_cons, List.map_nil, List.tail_cons,
      List.zip_cons_cons, List.zip_nil_right, List.mem_cons, Prod.mk.injEq, List.not_mem_nil, or_false] at hpq
    push_cast at s1
    have pv : ∀ a : Ieee, (plain a).val = a.value := fun _ => rfl
    have ht : 0 ≤ (Num.lit (3 / 10) : Ieee).value := by linarith
    generalize (Num.lit (3 / 10) : Ieee) = t at *
    rcases hpq with ⟨rfl, rfl⟩ | ⟨rfl, rfl⟩ | ⟨rfl, rfl⟩ <;>
      simp only [moduleVal, SwerveModule.mapD, Translation2.mapD, pv, n3, sub_self, abs_zero] at hg <;>
      rcases hg with hg | hg <;> first
        | exact absurd hg hne
        | (rw [hg]
           first
             | (rw [abs_of_nonneg (by linarith)]; ring)
             | (rw [abs_of_nonpos (by linarith)]; ring))
  have hu : binary64.u ≤ 1 / 2 ^ 20 := binary64.small
  have hu0 := binary64.u_nonneg
  have hη0 := Doubles.eta_nonneg binary64
  have hη : binary64.η ≤ 1 / 10 ^ 9 := by
    change (2 : ℝ) ^ (-1075 : ℤ) ≤ _
    calc (2 : ℝ) ^ (-1075 : ℤ) ≤ 2 ^ (-40 : ℤ) := zpow_le_zpow_right₀ (by norm_num) (by norm_num)
      _ ≤ _ := by norm_num
  have seg : ∀ s < (table (b.mapD plain)).counts.length, s = 0 := by
    intro s hs; rw [hc] at hs; simpa using hs
  refine ⟨?_, ?_, ?_, ?_, ?_, ?_⟩
  · intro s hs n hn
    simp only [segmentSamples, Finset.mem_Ioc] at hn
    obtain ⟨k, rfl⟩ : ∃ k, n = k + 1 := ⟨n - 1, by omega⟩
    refine ⟨?_, .inl ?_, ?_, ?_⟩
    · simp only [metreTraj, Nat.add_sub_cancel]
      push_cast
      field_simp
    · simp [metreTraj, unitVec]
    · simp [metreTraj]
    · simp [metreTraj]
  · intro n hn
    refine ⟨by simp [metreTraj], by simp [metreTraj, torque], ?_, ?_⟩
    · intro m hm
      obtain ⟨e1, e2⟩ := hmod m hm
      rw [maxSpeed, e1, e2, h70]
      have hv : ‖wheelVelocity ((metreTraj N).state n) m‖ = 3 := by
        simp [wheelVelocity, metreTraj]
      rw [hv]
      push_cast at r1 r2
      have hV : 349 / 100 ≤ |(Num.lit (1 / 20) : Ieee).value * 70| := (by linarith : _ ≤ _).trans (le_abs_self _)
      refine le_trans ?_ (tightSq_ge (by linarith) (hη.trans (by norm_num)))
      nlinarith
    · intro j
      have : (metreTraj N).force n j = 0 := rfl
      rw [this, norm_zero, zero_pow two_ne_zero]
      have hm := List.getElem_mem j.2
      refine le_trans ?_ (tightSq_ge ?_ (hη.trans (by norm_num)))
      · positivity
      · rw [maxForce, Fin.getElem_fin, (hmod _ hm).1, htor _ hm]
        push_cast at r1 r2
        refine le_trans ?_ (le_abs_self _)
        rw [le_div_iff₀ (by linarith)]
        linarith
  · intro s hs
    change (0 : ℝ) ≤ 1 / (3 * N)
    positivity
  · intro s hs m hm g hg
    obtain ⟨e1, e2⟩ := hmod m hm
    rw [hgap g hg, e1, e2, h70]
    change 1 / (3 * (N : ℝ)) * _ * 70 ≤ _
    have : 1 / (3 * (N : ℝ)) ≤ 1 / 6 := one_div_le_one_div_of_le (by norm_num) (by linarith)
    have h0 : 0 ≤ 1 / (3 * (N : ℝ)) := by positivity
    generalize 1 / (3 * (N : ℝ)) = dt at *
    generalize (Num.lit (1 / 20) : Ieee).value = r at *
    generalize (Num.lit (3 / 10) : Ieee).value = t at *
    generalize binary64.η = η at *
    generalize binary64.u = u at *
    push_cast at r1 r2 s1 s2
    have a1 : dt * r ≤ 1 / 6 * r := mul_le_mul_of_nonneg_right this (by linarith)
    have a2 : u * t ≤ 1 / 2 ^ 20 * t := mul_le_mul_of_nonneg_right hu (by linarith)
    nlinarith
  · intro w hw c hcm
    have hw' : w = 0 ∨ w = 1 := by rw [hc, List.length_singleton] at hw; omega
    have hhead : ∀ n, ∃ t : ℝ, ‖((metreTraj N).state n).heading‖ = 1 ∧ ((metreTraj N).state n).heading =
        t * ⟨rnd64 (Real.cos (Num.lit 0 : Ieee).value), rnd64 (Real.sin (Num.lit 0 : Ieee).value)⟩ := fun n => by
      refine ⟨1, by simp [metreTraj], ?_⟩
      have c1 : rnd64 (1 : ℝ) = 1 := by exact_mod_cast rnd64_int 1 (by norm_num)
      rw [v0, Real.cos_zero, Real.sin_zero, c1, rnd64_zero]
      simp [metreTraj, Complex.ext_iff]
    rcases hw' with rfl | rfl
    · rw [hi, h3] at hcm
      simp only [List.map_cons, List.map_nil, List.mem_singleton] at hcm
      subst hcm
      refine ⟨?_, hhead _⟩
      change _ = (⟨(Num.lit 0 : Ieee).value, (Num.lit 0 : Ieee).value⟩ : ℂ)
      rw [v0]
      simp [metreTraj, waypointSample, Complex.ext_iff]
    · rw [hi, h4] at hcm
      simp only [List.map_cons, List.map_nil, List.mem_singleton] at hcm
      subst hcm
      refine ⟨?_, hhead _⟩
      change _ = (⟨(Num.lit 1 : Ieee).value, (Num.lit 0 : Ieee).value⟩ : ℂ)
      rw [v0, v1, hc]
      simp [metreTraj, waypointSample, hNc, Complex.ext_iff]
  · intro s hs c hcm
    obtain rfl := seg s hs
    rw [continuous_mapD, h5] at hcm
    simp at hcm

end Trajopt.Props
