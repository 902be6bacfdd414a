import Verif.Lemmas.IeeeProblem

/-!
# Data and start values of programs with IEEE doubles that are neither huge nor tiny
-/

set_option autoImplicit false

namespace Trajopt

open Spec Ieee

/-! ### builders left unchanged -/

section
variable {D : Type} {f : D → D}

theorem list_fixed {α : Type} {g : α → α} {l : List α} : l.map g = l ↔ ∀ a ∈ l, g a = a := by
  conv_lhs => rhs; rw [← List.map_id l]
  exact List.map_inj_left

theorem translation_fixed {p : Translation2 D} : p.mapD f = p ↔ ∀ d ∈ p.data, f d = d := by
  obtain ⟨x, y⟩ := p
  simp [Translation2.mapD, Translation2.data]

theorem pose_fixed {p : Pose2 D} : p.mapD f = p ↔ ∀ d ∈ p.data, f d = d := by
  obtain ⟨⟨x, y⟩, ⟨c, s⟩⟩ := p
  simp [Pose2.mapD, Translation2.mapD, Rotation2.mapD, Pose2.data, and_assoc]

theorem obstacle_fixed {o : Obstacle D} : o.mapD f = o ↔ ∀ d ∈ o.data, f d = d := by
  obtain ⟨x, y⟩ := o
  simp only [Obstacle.mapD, Obstacle.data, Obstacle.mk.injEq, list_fixed, translation_fixed, List.mem_cons,
    forall_eq_or_imp, List.mem_flatMap, forall_exists_index, and_imp]
  exact and_congr_right fun _ => ⟨fun h d p hp hd => h p hp d hd, fun h p hp d hd => h d p hp hd⟩

theorem constraint_fixed {c : Constraint D} : c.mapD f = c ↔ ∀ d ∈ c.data, f d = d := by
  cases c <;> simp [Constraint.mapD, Constraint.data, translation_fixed, Translation2.data] <;> tauto

theorem drivetrain_fixed {dr : SwerveDrivetrain D} : dr.mapD f = dr ↔ ∀ d ∈ dr.data, f d = d := by
  obtain ⟨m, i, ms⟩ := dr
  have : ∀ md : SwerveModule D, md.mapD f = md ↔
      ∀ d ∈ [md.wheelRadius, md.wheelMaxAngularVelocity, md.wheelMaxTorque] ++ md.translation.data, f d = d := by
    intro ⟨t, a, b, c⟩
    simp [SwerveModule.mapD, translation_fixed, Translation2.data]
    tauto
  simp only [SwerveDrivetrain.mapD, SwerveDrivetrain.data, SwerveDrivetrain.mk.injEq, list_fixed, this, List.mem_cons,
    forall_eq_or_imp, List.mem_flatMap, forall_exists_index, and_imp]
  exact and_congr_right fun _ => and_congr_right fun _ =>
    ⟨fun h d p hp hd => h p hp d hd, fun h p hp d hd => h d p hp hd⟩

theorem op_fixed {op : Op D} (h : ∀ d ∈ op.data, f d = d) : op.mapD f = op := by
  cases op with
  | setDrivetrain d => exact congrArg Op.setDrivetrain (drivetrain_fixed.mpr h)
  | poseWpt i x y t => simp only [Op.data, List.mem_cons, forall_eq_or_imp] at h; simp [Op.mapD, h]
  | translationWpt i x y t => simp only [Op.data, List.mem_cons, forall_eq_or_imp] at h; simp [Op.mapD, h]
  | wptInitialGuessPoint i p => exact congrArg _ (pose_fixed.mpr h)
  | sgmtInitialGuessPoints i ps =>
    exact congrArg _ (list_fixed.mpr fun p hp => pose_fixed.mpr fun d hd => h d (List.mem_flatMap.mpr ⟨p, hp, hd⟩))
  | addBumpers o => exact congrArg _ (obstacle_fixed.mpr h)
  | wptObstacle i o => exact congrArg _ (obstacle_fixed.mpr h)
  | sgmtObstacle i j o => exact congrArg _ (obstacle_fixed.mpr h)
  | wptConstraint i c => exact congrArg _ (constraint_fixed.mpr h)
  | sgmtConstraint i j c => exact congrArg _ (constraint_fixed.mpr h)
  | controlIntervalCounts cs => rfl
  | addIntermediateCallback k => rfl

end

namespace Ieee

open Classical in
/-- Huge values replaced by zero. -/
noncomputable def curb (k : ℤ) (a : Ieee) : Ieee := if Fits k a then a else Num.lit 0

theorem curb_of {k : ℤ} {a : Ieee} (h : Fits k a) : curb k a = a := if_pos h

theorem fits_zero {k : ℤ} (h : 0 ≤ k) : Fits k (Num.lit 0) :=
  (fits_lit (k := 0) (by simp) (by norm_num) (by norm_num)).1.mono h

theorem fits_curb {k : ℤ} (h : 0 ≤ k) {a : Ieee} (ha : curb k a = a) : Fits k a := by
  unfold curb at ha
  split at ha
  · assumption
  · rw [← ha]
    exact fits_zero h

theorem reads_curb {k : ℤ} (h0 : 0 ≤ k) (h1 : k < 1023) : Reads (curb (k + 1)) (Fits k) where
  zero := curb_of (fits_zero (by omega))
  zero_mem := fits_zero h0
  add ha hb := by
    rw [curb_of (ha.mono (by omega)), curb_of (hb.mono (by omega)),
      curb_of (fits_add ha hb (by omega) h1).1]
  le ha hb := by rw [curb_of (fits_add ha hb (by omega) h1).1]
  cos ha := by rw [curb_of (ha.mono (by omega)), curb_of ((fits_cos ha.1).1.mono (by omega))]
  sin ha := by rw [curb_of (ha.mono (by omega)), curb_of ((fits_sin ha.1).1.mono (by omega))]

/-- What programs leave is at most twice what they pass. -/
theorem curb_run {k : ℤ} (h0 : 0 ≤ k) (h1 : k < 1023) (asserts : Bool) {ops : List (Op Ieee)}
    (hops : ∀ op ∈ ops, ∀ d ∈ op.data, Fits k d) :
    Builder.mapD (curb (k + 1)) (run asserts ops Builder.new) = run asserts ops Builder.new := by
  have := mapD_run (reads_curb h0 h1) asserts hops (b := Builder.new) (by simp [Builder.new])
  rw [← this]
  congr 1
  exact list_fixed.mpr fun op ho => op_fixed fun d hd => curb_of ((hops op ho d hd).mono (by omega))

/-! ### the initial guess -/

theorem fits_ofNat {n : ℕ} (h : n < 2 ^ 64) :
    Fits 64 (Dbl.ofNat n : Ieee) ∧ (Dbl.ofNat n : Ieee).value = rnd64 n := by
  have := fits_ofInt (z := n) (k := 64) (by
    rw [Int.cast_natCast, abs_of_nonneg (Nat.cast_nonneg n)]
    exact_mod_cast h.le) (by norm_num) (by norm_num)
  exact this

theorem ofNat_ge {n : ℕ} (h0 : 0 < n) (h : n < 2 ^ 64) : 2 ^ (-0 : ℤ) ≤ |(Dbl.ofNat n : Ieee).value| := by
  rw [(fits_ofNat h).2]
  refine le_trans (rnd64_zpow_le (k := -0) (by norm_num) ?_) (le_abs_self _)
  rw [neg_zero, zpow_zero]
  exact_mod_cast h0

theorem fits_linspace {s e : Ieee} {k : ℤ} (hs : Fits k s) (he : Fits k e) (h0 : 0 ≤ k) (h1 : k < 900) {n : ℕ}
    (hn : n < 2 ^ 64) : ∀ d ∈ linspace s e n, Fits (k + 66) d := by
  intro d hd
  simp only [linspace, List.mem_map, List.mem_range'_1] at hd
  obtain ⟨i, hi, rfl⟩ := hd
  have hd := (fits_sub he hs (by omega) (by omega)).1
  have h2 := (fits_div hd (fits_ofNat hn).1.1 (ofNat_ge (by omega) hn) (by omega) (by omega)).1
  have h3 := (fits_mul (fits_ofNat (n := i) (by omega)).1 h2 (by omega) (by omega)).1
  have h4 := (fits_add (hs.mono (j := k + 65) (by omega)) (h3.mono (by omega)) (by omega) (by omega)).1
  exact h4.mono (by omega)

theorem modulus_spec : Fits 3 (Num.lit 2 * Dbl.pi : Ieee) ∧ 2 ^ (- -2 : ℤ) ≤ |(Num.lit 2 * Dbl.pi : Ieee).value| := by
  have h2 := fits_lit (q := 2) (k := 1) (by norm_num) (by norm_num) (by norm_num)
  have h := fits_mul h2.1 fits_pi.1 (by norm_num) (by norm_num)
  refine ⟨h.1, ?_⟩
  rw [h.2, h2.2, fits_pi.2]
  have h2' : (2 : ℝ) ^ (1 : ℤ) ≤ rnd64 ((2 : ℚ) : ℝ) := rnd64_zpow_le (by norm_num) (by norm_num)
  have hp : (2 : ℝ) ^ (1 : ℤ) ≤ rnd64 Real.pi := rnd64_zpow_le (by norm_num) (by
    have := Real.two_le_pi
    norm_num
    exact this)
  refine le_trans (rnd64_zpow_le (k := - -2) (by norm_num) ?_) (le_abs_self _)
  rw [show (2 : ℝ) ^ (- -2 : ℤ) = 2 ^ (1 : ℤ) * 2 ^ (1 : ℤ) by norm_num]
  exact mul_le_mul h2' hp (by positivity) (le_trans (by positivity) h2')

theorem fits_angles {s e : Ieee} (hs : Fits 2 s) (he : Fits 2 e) {n : ℕ} (hn : n < 2 ^ 64) :
    ∀ d ∈ angleLinspace s e n, Fits 80 d := by
  unfold angleLinspace
  dsimp only
  have hpi := fits_pi.1
  have hmod := modulus_spec
  set mo : Ieee := Num.lit 2 * Dbl.pi
  have step : ∀ {d p : Ieee} {i : ℤ}, Fits i d → Fits 2 p → 2 ≤ i → i < 100 →
      Fits (i + 4) (d - Dbl.trunc ((d - p) / mo) * mo) := by
    intro d p i hd hp h1 h2
    have a := (fits_sub hd (hp.mono h1) (by omega) (by omega)).1
    have b := (fits_div a hmod.1.1 hmod.2 (by omega) (by omega)).1
    have c := (fits_trunc b (by omega) (by omega)).1
    have d' := (fits_mul c hmod.1 (by omega) (by omega)).1
    exact ((fits_sub (hd.mono (j := i + 3) (by omega)) (d'.mono (by omega)) (by omega) (by omega)).1).mono (by omega)
  have h1 := (fits_sub he hs (by norm_num) (by norm_num)).1
  have h2 := step h1 (fits_neg hpi) (by norm_num) (by norm_num)
  have h3 := step h2 hpi (by norm_num) (by norm_num)
  have h4 := (fits_add (hs.mono (j := 2 + 1 + 4 + 4) (by norm_num)) h3 (by norm_num) (by norm_num)).1
  intro d hd
  exact (fits_linspace (hs.mono (by norm_num)) h4 (by norm_num) (by norm_num) hn d hd).mono (by norm_num)

theorem length_le_sum {N : List ℕ} (h : ∀ n ∈ N, 0 < n) : N.length ≤ N.sum := by
  induction N with
  | nil => simp
  | cons n N ih =>
    have h1 := h n List.mem_cons_self
    have h2 := ih fun x hx => h x (List.mem_cons_of_mem _ hx)
    rw [List.length_cons, List.sum_cons]
    omega

/-- The numbers of a pose are not huge. -/
def PoseFits (p : Pose2 Ieee) : Prop := ∀ d ∈ p.data, Fits 251 d

theorem fits_piece {p q : Pose2 Ieee} (hp : PoseFits p) (hq : PoseFits q) {n : ℕ} (hn : n < 2 ^ 64) :
    (∀ d ∈ (guessPiece p q n).1, Fits 317 d) ∧ (∀ d ∈ (guessPiece p q n).2.1, Fits 317 d) ∧
    (∀ d ∈ (guessPiece p q n).2.2.1, Fits 251 d) ∧ (∀ d ∈ (guessPiece p q n).2.2.2, Fits 251 d) := by
  simp only [PoseFits, Pose2.data, List.mem_cons, List.not_mem_nil, or_false, forall_eq_or_imp, forall_eq] at hp hq
  have ha := fits_angles (fits_atan2 hp.2.2.2.1 hp.2.2.1.1) (fits_atan2 hq.2.2.2.1 hq.2.2.1.1) hn
  refine ⟨fun d hd => (fits_linspace hp.1 hq.1 (by norm_num) (by norm_num) hn d hd).mono (by norm_num),
    fun d hd => (fits_linspace hp.2.1 hq.2.1 (by norm_num) (by norm_num) hn d hd).mono (by norm_num), ?_, ?_⟩ <;>
    intro d hd <;> obtain ⟨t, ht, rfl⟩ := List.mem_map.mp hd
  · exact (fits_cos (ha t ht).1).1.mono (by norm_num)
  · exact (fits_sin (ha t ht).1).1.mono (by norm_num)

theorem poseFits_zero : PoseFits Pose2.zero := by
  have h0 := fits_zero (k := 0) le_rfl
  simp only [PoseFits, Pose2.zero, Pose2.data, List.mem_cons, List.not_mem_nil, or_false, forall_eq_or_imp, forall_eq]
  refine ⟨h0.mono (by norm_num), h0.mono (by norm_num), ?_, h0.mono (by norm_num)⟩
  exact (fits_lit (k := 0) (by simp) (by norm_num) (by norm_num)).1.mono (by norm_num)

/-- Guess of a builder whose poses are not huge. -/
structure GuessFits (sol : SwerveSolution Ieee) : Prop where
  x : ∀ d ∈ sol.x, Fits 317 d
  y : ∀ d ∈ sol.y, Fits 317 d
  c : ∀ d ∈ sol.thetacos, Fits 251 d
  s : ∀ d ∈ sol.thetasin, Fits 251 d
  dt : ∀ d ∈ sol.dt, d.Finite ∧ 2 ^ (-62 : ℤ) ≤ |d.value|

theorem fits_guess {pts : List (List (Pose2 Ieee))} {N : List ℕ} (hN : 1 + N.sum < 2 ^ 64) (hpos : ∀ n ∈ N, 0 < n)
    (hp : ∀ l ∈ pts, ∀ p ∈ l, PoseFits p) {sol : SwerveSolution Ieee}
    (h : generateLinearInitialGuess pts N = .ok sol) : GuessFits sol := by
  have hidx : getIndex N (N.length + 1) 0 = .ok (1 + N.sum) := by
    rw [getIndex_succ _ _ _ (Nat.le_refl _) (by rw [List.take_length]; omega), List.take_length, Nat.add_zero]
  rw [generate_eq_ok (generate_ok_imp h) hidx] at h
  obtain rfl := Except.ok.inj h
  have hcur : ∀ w, ∀ p ∈ pts.getD w [], PoseFits p := by
    intro w
    rw [List.getD_eq_getElem?_getD]
    rcases hw : pts[w]? with _ | l
    · simp
    · exact hp l (List.mem_of_getElem? hw)
  have hlast : ∀ w, PoseFits (lastGuess pts w) := by
    intro w
    unfold lastGuess
    rcases hw : (pts.getD w []).getLast? with _ | p
    · exact poseFits_zero
    · exact hcur w p (List.mem_of_getLast? hw)
  have hhead : PoseFits ((pts.getD 0 []).headD Pose2.zero) := by
    rcases hw : pts.getD 0 [] with _ | ⟨p, l⟩
    · exact poseFits_zero
    · exact hcur 0 p (by rw [hw]; simp)
  have hpc : ∀ pc ∈ guessPieces pts N, (∀ d ∈ pc.1, Fits 317 d) ∧ (∀ d ∈ pc.2.1, Fits 317 d) ∧
      (∀ d ∈ pc.2.2.1, Fits 251 d) ∧ (∀ d ∈ pc.2.2.2, Fits 251 d) := by
    intro pc h
    simp only [guessPieces, List.mem_flatten, List.mem_map, List.mem_range] at h
    obtain ⟨l, ⟨w, hw, rfl⟩, h⟩ := h
    simp only [segClosed, List.mem_map, List.mem_range] at h
    obtain ⟨j, hj, rfl⟩ := h
    have hseg : ∀ i, PoseFits (segPoint (lastGuess pts w) (pts.getD (w + 1) []) i) := by
      intro i
      cases i with
      | zero => exact hlast w
      | succ i =>
        rw [segPoint, List.getD_eq_getElem?_getD]
        rcases hi : (pts.getD (w + 1) [])[i]? with _ | p
        · exact hlast w
        · exact hcur (w + 1) p (List.mem_of_getElem? hi)
    refine fits_piece (hseg _) (hseg _) ?_
    have h1 : N.getD w 0 ≤ N.sum := by
      rw [getD_lt hw]
      exact List.le_sum_of_mem (List.getElem_mem hw)
    have h2 : pieceCount (pts.getD (w + 1) []).length (N.getD w 0) j ≤ N.getD w 0 := by
      unfold pieceCount
      split
      · exact Nat.div_le_self ..
      · exact Nat.sub_le ..
    omega
  have hflat : ∀ {k : ℤ} {a : Ieee} (g : List Ieee × List Ieee × List Ieee × List Ieee → List Ieee), Fits k a →
      (∀ pc ∈ guessPieces pts N, ∀ d ∈ g pc, Fits k d) →
      ∀ d ∈ a :: ((guessPieces pts N).map g).flatten, Fits k d := by
    intro k a g ha hg d hd
    rcases List.mem_cons.mp hd with rfl | hd
    · exact ha
    · obtain ⟨l, hl, hd⟩ := List.mem_flatten.mp hd
      obtain ⟨pc, hpc, rfl⟩ := List.mem_map.mp hl
      exact hg pc hpc d hd
  simp only [PoseFits, Pose2.data, List.mem_cons, List.not_mem_nil, or_false, forall_eq_or_imp, forall_eq] at hhead
  refine ⟨hflat _ (hhead.1.mono (by norm_num)) fun pc h => (hpc pc h).1,
    hflat _ (hhead.2.1.mono (by norm_num)) fun pc h => (hpc pc h).2.1,
    hflat _ hhead.2.2.1 fun pc h => (hpc pc h).2.2.1, hflat _ hhead.2.2.2 fun pc h => (hpc pc h).2.2.2, ?_⟩
  intro d hd
  obtain rfl := List.eq_of_mem_replicate hd
  have hl : N.length ≤ N.sum := by
    exact length_le_sum hpos
  have h5 := fits_lit (q := 5) (k := 3) (by norm_num) (by norm_num) (by norm_num)
  have hw := fits_ofNat (n := N.length + 1) (by omega)
  have hS := fits_ofNat (n := 1 + N.sum) hN
  have hS1 := ofNat_ge (n := 1 + N.sum) (by omega) hN
  have a := fits_mul hw.1 h5.1 (by norm_num) (by norm_num)
  have b := fits_div a.1 hS.1.1 hS1 (by norm_num) (by norm_num)
  refine ⟨b.1.1, ?_⟩
  rw [b.2, a.2, hw.2, h5.2, hS.2]
  have e5 : (2 : ℝ) ^ (2 : ℤ) ≤ rnd64 ((5 : ℚ) : ℝ) := rnd64_zpow_le (by norm_num) (by norm_num)
  have ew : (2 : ℝ) ^ (0 : ℤ) ≤ rnd64 ((N.length + 1 : ℕ) : ℝ) := rnd64_zpow_le (by norm_num) (by
    rw [zpow_zero]
    exact_mod_cast Nat.succ_le_succ (Nat.zero_le _))
  have em : (2 : ℝ) ^ (2 : ℤ) ≤ rnd64 (rnd64 ((N.length + 1 : ℕ) : ℝ) * rnd64 ((5 : ℚ) : ℝ)) :=
    rnd64_zpow_le (by norm_num) (by
      rw [show (2 : ℝ) ^ (2 : ℤ) = 2 ^ (0 : ℤ) * 2 ^ (2 : ℤ) by norm_num]
      exact mul_le_mul ew e5 (by positivity) (le_trans (by positivity) ew))
  have eS : rnd64 ((1 + N.sum : ℕ) : ℝ) ≤ 2 ^ (64 : ℤ) := rnd64_le_zpow (by norm_num) (by exact_mod_cast hN.le)
  have eS' : (0 : ℝ) < rnd64 ((1 + N.sum : ℕ) : ℝ) := lt_of_lt_of_le (by positivity)
    (rnd64_zpow_le (k := 0) (by norm_num) (by rw [zpow_zero]; exact_mod_cast Nat.le_add_right 1 _))
  refine le_trans (rnd64_zpow_le (k := -62) (by norm_num) ?_) (le_abs_self _)
  rw [le_div_iff₀ eS']
  calc (2 : ℝ) ^ (-62 : ℤ) * rnd64 ((1 + N.sum : ℕ) : ℝ) ≤ 2 ^ (-62 : ℤ) * 2 ^ (64 : ℤ) := by gcongr
    _ = 2 ^ (2 : ℤ) := by rw [← zpow_add₀ (by norm_num)]; norm_num
    _ ≤ _ := em

/-! ### start values -/

theorem getD_fits {l : List Ieee} {k : ℤ} (hk : 0 ≤ k) (h : ∀ d ∈ l, Fits k d) (n : ℕ) : Fits k (l.getD n (Num.lit 0)) := by
  rw [List.getD_eq_getElem?_getD]
  rcases hn : l[n]? with _ | d
  · exact fits_zero hk
  · exact h d (List.mem_of_getElem? hn)

theorem fits_diff {f : ℕ → Ieee} {k : ℤ} (hk : 0 ≤ k) (hk' : k < 900) (hf : ∀ n, Fits k (f n)) {dt : List Ieee}
    (hdt : ∀ d ∈ dt, d.Finite ∧ 2 ^ (-62 : ℤ) ≤ |d.value|) {n : ℕ} (hn : n < dt.length) :
    Fits (k + 63) (guessDiff f dt n) := by
  cases n with
  | zero => exact fits_zero (by omega)
  | succ n =>
    have h := hdt _ (List.getElem_mem hn)
    rw [guessDiff, getD_lt hn]
    have a := (fits_sub (hf (n + 1)) (hf n) (by omega) (by omega)).1
    exact (fits_div a h.1 h.2 (by omega) (by omega)).1.mono (by omega)

theorem fits_omega {sol : SwerveSolution Ieee} (h : GuessFits sol) {n : ℕ} (hn : n < sol.dt.length) :
    Fits 64 (guessOmega sol n) := by
  cases n with
  | zero => exact fits_zero (by omega)
  | succ n =>
    have hd := h.dt _ (List.getElem_mem hn)
    have c1 := getD_fits (by norm_num) h.c (n + 1)
    have c0 := getD_fits (by norm_num) h.c n
    have s1 := getD_fits (by norm_num) h.s (n + 1)
    have s0 := getD_fits (by norm_num) h.s n
    have m : ∀ {a b : Ieee}, Fits 251 a → Fits 251 b → Fits 502 (a * b) := fun ha hb =>
      (fits_mul ha hb (by norm_num) (by norm_num)).1
    have hs := (fits_add (m c1 (fits_neg s0)) (m s1 c0) (by norm_num) (by norm_num)).1
    have hc := (fits_sub (m c1 c0) (m s1 (fits_neg s0)) (by norm_num) (by norm_num)).1
    rw [guessOmega, getD_lt hn]
    refine (fits_div (i := 2) ?_ hd.1 hd.2 (by norm_num) (by norm_num)).1.mono (by norm_num)
    exact fits_atan2 hs.1 hc.1

/-- Velocity past the end of the time steps is irrelevant: guesses of samples below `S` only. -/
theorem fits_diff2 {f : ℕ → Ieee} {k : ℤ} (hk : 0 ≤ k) (hk' : k < 900) {dt : List Ieee}
    (hf : ∀ n < dt.length, Fits k (f n)) (hdt : ∀ d ∈ dt, d.Finite ∧ 2 ^ (-62 : ℤ) ≤ |d.value|) {n : ℕ}
    (hn : n < dt.length) : Fits (k + 63) (guessDiff f dt n) := by
  have := fits_diff (f := fun n => if n < dt.length then f n else Num.lit 0) hk hk' (fun n => by
    split
    · exact hf n ‹_›
    · exact fits_zero hk) hdt hn
  cases n with
  | zero => exact this
  | succ n =>
    rw [guessDiff, if_pos hn, if_pos (by omega)] at this
    exact this

theorem fits_comp {sol : SwerveSolution Ieee} (h : GuessFits sol) {n : ℕ} (hn : n < sol.dt.length)
    (c : ℕ) : Fits 512 (guessComp sol n c) := by
  have x := getD_fits (by norm_num) h.x
  have y := getD_fits (by norm_num) h.y
  have w : ∀ n < sol.dt.length, Fits 64 (guessOmega sol n) := fun n hn => fits_omega h hn
  have d1 : ∀ {f : ℕ → Ieee}, (∀ n, Fits 317 (f n)) → ∀ n < sol.dt.length, Fits (317 + 63) (guessDiff f sol.dt n) :=
    fun hf n hn => fits_diff (by norm_num) (by norm_num) hf h.dt hn
  match c with
  | 0 => exact (x n).mono (by norm_num)
  | 1 => exact (y n).mono (by norm_num)
  | 2 => exact (getD_fits (by norm_num) h.c n).mono (by norm_num)
  | 3 => exact (getD_fits (by norm_num) h.s n).mono (by norm_num)
  | 4 => exact (d1 x n hn).mono (by norm_num)
  | 5 => exact (d1 y n hn).mono (by norm_num)
  | 6 => exact (w n hn).mono (by norm_num)
  | 7 => exact (fits_diff2 (by norm_num) (by norm_num) (d1 x) h.dt hn).mono (by norm_num)
  | 8 => exact (fits_diff2 (by norm_num) (by norm_num) (d1 y) h.dt hn).mono (by norm_num)
  | 9 => exact (fits_diff2 (by norm_num) (by norm_num) w h.dt hn).mono (by norm_num)
  | _ + 10 => exact fits_zero (by norm_num)

theorem fits_dtValues {dts : List (ℕ × ℕ)} (h : ∀ x ∈ dts, 0 < x.2 ∧ x.2 < 2 ^ 64) {v : ℕ → Ieee}
    (hv : ∀ j, Fits 512 (v j)) (j : ℕ) : Fits 512 (dtValues dts v j) := by
  induction dts generalizing v with
  | nil => exact hv j
  | cons x dts ih =>
    rw [dtValues, List.foldl_cons]
    refine ih (fun y hy => h y (List.mem_cons_of_mem _ hy)) fun j => ?_
    split
    · obtain ⟨h0, h1⟩ := h x List.mem_cons_self
      have h5 := (fits_lit (q := 5) (k := 3) (by norm_num) (by norm_num) (by norm_num)).1
      exact (fits_div h5 (fits_ofNat h1).1.1 (ofNat_ge h0 h1) (by norm_num) (by norm_num)).1.mono (by norm_num)
    · exact hv j

end Ieee

end Trajopt
