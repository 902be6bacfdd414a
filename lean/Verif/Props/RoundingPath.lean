import Verif.Spec.RoundingPath
import Verif.Props.Rounding
import Verif.Props.Trajectory

/-!
# C76 The generated problem with double constants
-/

set_option autoImplicit false

namespace Trajopt.Props

open Spec Doubles

/-- The constraints of a problem, group by group, for any reading `H` of single constraints. -/
theorem holds_with {D : Type} [Dbl D] (b : Builder D) (dr : SwerveDrivetrain D)
    (sol : SwerveSolution D) (handle : ℤ) (σ : ℕ → ℝ) (H : Con D → Prop) (step : ℝ → Prop)
    (dyn : State → (ℕ → ℂ) → Prop) (means : Constraint D → State → Prop)
    (hstep : ∀ v, (∀ md ∈ dr.modules, H (stepCap (minWidth dr.modules) v md)) ↔ step (σ v))
    (htime : ∀ v, H (.ge (.var v) (Num.lit 0)) ↔ 0 ≤ σ v)
    (hkin : ∀ n n' v, (∀ c ∈ kinCons (sampleVars dr.modules.length n)
      (sampleVars dr.modules.length n') (.var v), H c) ↔
      Interval (σ v) (decodeSample σ (sampleVars dr.modules.length n))
        (decodeSample σ (sampleVars dr.modules.length n')))
    (hdyn : ∀ n, (∀ c ∈ dynCons dr n, H c) ↔
      dyn (decodeSample σ (sampleVars dr.modules.length n)) (forceOf σ dr.modules.length n))
    (hF : ∀ s F F', (∀ j < dr.modules.length, F j = F' j) → dyn s F → dyn s F')
    (hmeans : ∀ c n, (∀ k ∈ c.apply (sampleVars dr.modules.length n), H k) ↔
      means c (decodeSample σ (sampleVars dr.modules.length n))) :
    (∀ c ∈ (closedGenerator b.path dr b.controlIntervalCounts sol handle).problem.cons, H c) ↔
      ObeysWith (table b) step dyn means
        (decode (closedGenerator b.path dr b.controlIntervalCounts sol handle).vars σ) := by
  set N := b.controlIntervalCounts with hN
  set m := dr.modules.length with hm
  have hcounts : (table b).counts = N := rfl
  simp only [closedGenerator, allCons, List.forall_mem_append, ← hm]
  have hdt : ∀ s < N.length, (List.range' ((1 + N.sum) * stride m) N.length).getD s 0 =
      (1 + N.sum) * stride m + s := by
    intro s hs
    rw [getD_lt (by simpa using hs)]; simp
  have e1 : (∀ c ∈ (List.range' ((1 + N.sum) * stride m) N.length).flatMap
      (fun dt => dr.modules.map (stepCap (minWidth dr.modules) dt)), H c) ↔
      ∀ s < N.length, step (σ ((1 + N.sum) * stride m + s)) := by
    simp only [List.mem_flatMap, List.mem_map, forall_exists_index, and_imp]
    constructor
    · intro h s hs
      exact (hstep _).mp fun md hmd => h _ _ (by rw [List.mem_range'_1]; omega) md hmd rfl
    · rintro h c v hv md hmd rfl
      rw [List.mem_range'_1] at hv
      have := h (v - (1 + N.sum) * stride m) (by omega)
      rw [Nat.add_sub_cancel' hv.1] at this
      exact (hstep _).mpr this md hmd
  have e2 : (∀ c ∈ ((List.range' ((1 + N.sum) * stride m) N.length).zip N).map
      (fun x => Con.ge (.var x.1) (Num.lit 0)), H c) ↔
      ∀ s < N.length, 0 ≤ σ ((1 + N.sum) * stride m + s) := by
    simp only [List.mem_map, forall_exists_index, and_imp]
    constructor
    · intro h s hs
      exact (htime _).mp (h _ ((1 + N.sum) * stride m + s, N[s]) (by
        rw [List.mem_iff_getElem]
        refine ⟨s, by simpa using hs, by simp⟩) rfl)
    · rintro h c ⟨v, k⟩ hv rfl
      rw [List.mem_iff_getElem] at hv
      obtain ⟨s, hs, hv⟩ := hv
      simp only [List.length_zip, List.length_range', min_self] at hs
      simp only [List.getElem_zip, List.getElem_range', Prod.mk.injEq, Nat.one_mul] at hv
      have := h s hs
      rw [htime, ← hv.1]; exact this
  have e3 : (∀ c ∈ kinList m N (List.range' ((1 + N.sum) * stride m) N.length), H c) ↔
      ∀ s (hs : s < N.length), ∀ k < N[s], Interval (σ ((1 + N.sum) * stride m + s))
        (decodeSample σ (sampleVars m ((N.take s).sum + k)))
        (decodeSample σ (sampleVars m ((N.take s).sum + 1 + k))) := by
    simp only [kinList, List.mem_flatMap, List.mem_range, forall_exists_index, and_imp]
    constructor
    · intro h s hs k hk
      rw [← hkin]
      intro c hc
      refine h c s hs k (by rwa [getD_lt hs]) ?_
      rwa [hdt s hs]
    · intro h c s hs k hk hc
      rw [getD_lt hs] at hk
      rw [hdt s hs] at hc
      exact (hkin _ _ _).mpr (h s hs k hk) c hc
  have e4 : (∀ c ∈ (List.range (1 + N.sum)).flatMap (dynCons dr), H c) ↔
      ∀ n < 1 + N.sum, dyn (decodeSample σ (sampleVars m n)) (forceOf σ m n) := by
    simp only [List.mem_flatMap, List.mem_range, forall_exists_index, and_imp]
    constructor
    · intro h n hn
      exact (hdyn n).mp fun c hc => h c n hn hc
    · intro h c n hn hc
      exact (hdyn n).mpr (h n hn) c hc
  have e5 : (∀ c ∈ wptList m b.path N, H c) ↔ ∀ w ≤ N.length, ∀ c ∈ (table b).instant w,
      means c (decodeSample σ (sampleVars m (waypointSample N w))) := by
    simp only [wptList, List.mem_flatMap, List.mem_range, forall_exists_index, and_imp]
    constructor
    · intro h w hw c hc
      exact (hmeans c _).mp fun k hk => h k w (by omega) c hc hk
    · intro h k w hw c hc hk
      exact (hmeans c _).mpr (h w (by omega) c hc) k hk
  have e6 : (∀ c ∈ sgmtList m b.path N, H c) ↔ ∀ s < N.length,
      ∀ c ∈ (table b).continuous s, ∀ n ∈ segmentSamples N s,
      means c (decodeSample σ (sampleVars m n)) := by
    simp only [sgmtList, List.mem_flatMap, List.mem_range, List.mem_range'_1, forall_exists_index,
      and_imp]
    constructor
    · intro h s hs c hc n hn
      obtain ⟨k, hk, rfl⟩ := (mem_segmentSamples hs).mp hn
      exact (hmeans c _).mp fun k' hk' => h k' s hs c hc _ (by omega) (by rw [getD_lt hs]; omega) hk'
    · intro h k s hs c hc n h1 h2 hk
      rw [getD_lt hs] at h2
      refine (hmeans c _).mpr (h s hs c hc n ?_) k hk
      rw [mem_segmentSamples hs]
      exact ⟨n - (N.take s).sum - 1, by omega, by omega⟩
  rw [e1, e2, e3, e4, e5, e6]
  have hst : ∀ n < 1 + N.sum, (decode (closedVars m (1 + N.sum)
      (List.range' ((1 + N.sum) * stride m) N.length)) σ).state n =
      decodeSample σ (sampleVars m n) := fun n hn => decode_state _ _ _ _ hn
  have hseg : ∀ s (hs : s < N.length), ∀ k < N[s], (N.take s).sum + 1 + k < 1 + N.sum := by
    intro s hs k hk
    have h1 := sum_take_le N (s + 1)
    have h2 := sum_take_succ N hs
    omega
  have hdt' : ∀ s < N.length, (decode (closedVars m (1 + N.sum)
      (List.range' ((1 + N.sum) * stride m) N.length)) σ).dt s =
      σ ((1 + N.sum) * stride m + s) := by
    intro s hs
    simp only [decode, closedVars, hdt s hs]
  have hfor : ∀ n < 1 + N.sum, ∀ j < m, (decode (closedVars m (1 + N.sum)
      (List.range' ((1 + N.sum) * stride m) N.length)) σ).force n j = forceOf σ m n j :=
    fun n hn j hj => decode_force _ _ _ _ hn hj
  constructor
  · rintro ⟨⟨⟨⟨⟨h1, h2⟩, h3⟩, h4⟩, h5⟩, h6⟩
    constructor <;> simp only [hcounts]
    · intro s hs n hn
      obtain ⟨k, hk, rfl⟩ := (mem_segmentSamples hs).mp hn
      have := hseg s hs k hk
      rw [hst _ this, hst _ (by omega), hdt' s hs,
        show (N.take s).sum + 1 + k - 1 = (N.take s).sum + k by omega]
      exact h3 s hs k hk
    · intro n hn
      rw [hst n hn]
      exact hF _ _ _ (fun j hj => (hfor n hn j hj).symm) (h4 n hn)
    · intro s hs; rw [hdt' s hs]; exact h2 s hs
    · intro s hs; rw [hdt' s hs]; exact h1 s hs
    · intro w hw c hc
      have := sum_take_le N w
      rw [hst _ (by simp only [waypointSample]; omega)]
      exact h5 w hw c hc
    · intro s hs c hc n hn
      obtain ⟨k, hk, rfl⟩ := (mem_segmentSamples hs).mp hn
      rw [hst _ (hseg s hs k hk)]
      exact h6 s hs c hc _ hn
  · rintro ⟨h3, h4, h2, h1, h5, h6⟩
    simp only [hcounts] at h1 h2 h3 h4 h5 h6
    refine ⟨⟨⟨⟨⟨?_, ?_⟩, ?_⟩, ?_⟩, ?_⟩, ?_⟩
    · intro s hs; rw [← hdt' s hs]; exact h1 s hs
    · intro s hs; rw [← hdt' s hs]; exact h2 s hs
    · intro s hs k hk
      have := hseg s hs k hk
      have := h3 s hs _ ((mem_segmentSamples hs).mpr ⟨k, hk, rfl⟩)
      rwa [hst _ (by omega), hst _ (by omega), hdt' s hs,
        show (N.take s).sum + 1 + k - 1 = (N.take s).sum + k by omega] at this
    · intro n hn
      have := h4 n hn
      rw [hst n hn] at this
      exact hF _ _ _ (hfor n hn) this
    · intro w hw c hc
      have := sum_take_le N w
      rw [← hst _ (by simp only [waypointSample]; omega)]
      exact h5 w hw c hc
    · intro s hs c hc n hn
      have h' := hn
      obtain ⟨k, hk, rfl⟩ := (mem_segmentSamples hs).mp hn
      rw [← hst _ (hseg s hs k hk)]
      exact h6 s hs c hc _ h'

variable {A : Arith}

/-- The variables of a sample in the generated problem. -/
def sampleIds (m n : ℕ) : VarIds where
  x := n * stride m
  y := n * stride m + 1
  cos := n * stride m + 2
  sin := n * stride m + 3
  vx := n * stride m + 4
  vy := n * stride m + 5
  omega := n * stride m + 6
  ax := n * stride m + 7
  ay := n * stride m + 8
  alpha := n * stride m + 9

theorem sampleIds_state (σ : ℕ → ℝ) (m n : ℕ) :
    (sampleIds m n).state σ = decodeSample σ (sampleVars m n) := rfl

theorem map_kinCons (m n n' v : ℕ) :
    (kinCons (D := Doubles A) (sampleVars m n) (sampleVars m n') (.var v)).map (Con.map val) =
      kinCons (sampleVars m n) (sampleVars m n') (.var v) := by
  simp only [kinCons, Translation2.eqCons, Rotation2.eqCons, if_true, List.map_append, List.map_cons,
    List.map_nil, Con.map, map_sub, map_mul, map_add, map_zero, map_one, Translation2.add,
    Translation2.smul, Rotation2.sub, Rotation2.add, Rotation2.neg, Rotation2.rotateBy,
    Rotation2.ofAngle, sampleVars, map_var, map_neg]
  rfl

/-- The limits as they come out of rounding, in a real drivetrain. -/
noncomputable def effModule (m : SwerveModule (Doubles A)) : SwerveModule ℝ where
  translation := ⟨m.translation.x.val, m.translation.y.val⟩
  wheelRadius := 1
  wheelMaxAngularVelocity := Real.sqrt (A.rnd (A.rnd (m.wheelRadius.val * m.wheelMaxAngularVelocity.val) *
    A.rnd (m.wheelRadius.val * m.wheelMaxAngularVelocity.val)))
  wheelMaxTorque := Real.sqrt (A.rnd (A.rnd (m.wheelMaxTorque.val / m.wheelRadius.val) *
    A.rnd (m.wheelMaxTorque.val / m.wheelRadius.val)))

/-- The drivetrain of these. -/
noncomputable def effRobot (dr : SwerveDrivetrain (Doubles A)) : SwerveDrivetrain ℝ :=
  ⟨dr.mass.val, dr.moi.val, dr.modules.map effModule⟩

theorem rnd_sq_nonneg (x : ℝ) : 0 ≤ A.rnd (x * x) := rnd_nonneg (mul_self_nonneg x)

theorem map_powerCons (m n j : ℕ) (md : SwerveModule (Doubles A)) :
    (powerCons (sampleVars m n) (forceVars m n j) md).map (Con.map val) =
      powerCons (sampleVars m n) (forceVars m n j) (effModule md) := by
  simp only [powerCons, List.map_cons, List.map_nil, Con.map, Translation2.squaredNorm,
    Translation2.rotateBy, Rotation2.neg, sampleVars, forceVars, map_add, map_sub, map_mul, map_neg,
    map_var, map_const, effModule, val_mul, val_div, one_mul, div_one,
    Real.mul_self_sqrt (rnd_sq_nonneg _)]

theorem map_powerList (m n : ℕ) (mods : List (SwerveModule (Doubles A))) (i : ℕ) :
    (powerList m n mods i).map (Con.map val) = powerList m n (mods.map effModule) i := by
  induction mods generalizing i with
  | nil => rfl
  | cons md rest ih => rw [powerList, List.map_append, ih, map_powerCons]; rfl

theorem map_torqueExpr (m n : ℕ) (mods : List (SwerveModule (Doubles A))) (i : ℕ)
    (tau : Expr (Doubles A)) :
    (torqueExpr m n mods i tau).map val = torqueExpr m n (mods.map effModule) i (tau.map val) := by
  induction mods generalizing i tau with
  | nil => rfl
  | cons md rest ih => rw [torqueExpr, ih]; rfl

theorem map_accumulate (F : List ℕ) :
    (accumulate F : Expr (Doubles A)).map val = accumulate F := by
  have : ∀ acc : Expr (Doubles A), (F.foldl (fun acc f => acc + .var f) acc).map val =
      F.foldl (fun acc f => acc + .var f) (acc.map val) := by
    induction F with
    | nil => intro acc; rfl
    | cons f rest ih => intro acc; rw [List.foldl_cons, ih]; rfl
  rw [accumulate, this, map_zero]; rfl

theorem map_dynCons (dr : SwerveDrivetrain (Doubles A)) (n : ℕ) :
    (dynCons dr n).map (Con.map val) = dynCons (effRobot dr) n := by
  simp only [dynCons, effRobot, List.map_append, map_powerList, List.map_cons, List.map_nil, Con.map,
    map_accumulate, map_torqueExpr, List.length_map, map_mul, map_const, map_zero]
  rfl

/-! ### the step cap -/

theorem rnd_abs_rnd (x : ℝ) : A.rnd |A.rnd x| = |A.rnd x| := by
  rcases abs_choice (A.rnd x) with h | h
  · rw [h, A.idem]
  · rw [h, A.symm, A.idem]

/-- `x` is at most the width, infinite for `none`. -/
def CappedD (x : ℝ) : Option (Doubles A) → Prop
  | none => True
  | some w => x ≤ w.val

theorem cappedD_step (x : ℝ) (w : Option (Doubles A)) (v : Doubles A) :
    CappedD x (minWidthStep w v) ↔ CappedD x w ∧ x ≤ v.val := by
  cases w with
  | none => simp [minWidthStep, CappedD]
  | some w =>
    have e : ∀ a b : Doubles A, Dbl.lt a b = decide (a.val < b.val) := fun _ _ => rfl
    simp only [minWidthStep, CappedD, Dbl.min, e, decide_eq_true_eq]
    split <;> constructor <;> intro h
    · exact ⟨by linarith, h⟩
    · exact h.2
    · exact ⟨h, by linarith⟩
    · exact h.1

theorem cappedD_loop (x : ℝ) (mods : List (SwerveModule (Doubles A))) (w : Option (Doubles A)) :
    CappedD x (minWidthLoop w mods) ↔ CappedD x w ∧ ∀ p ∈ mods.zip mods.tail,
      (A.rnd (p.1.translation.x.val - p.2.translation.x.val) ≠ 0 →
        x ≤ |A.rnd (p.1.translation.x.val - p.2.translation.x.val)|) ∧
      (A.rnd (p.1.translation.y.val - p.2.translation.y.val) ≠ 0 →
        x ≤ |A.rnd (p.1.translation.y.val - p.2.translation.y.val)|) := by
  induction mods generalizing w with
  | nil => simp [minWidthLoop]
  | cons a rest ih =>
    cases rest with
    | nil => simp [minWidthLoop]
    | cons b rest =>
      rw [minWidthLoop, ih]
      have e : ∀ a b : Doubles A, (Dbl.abs (a - b)).val = |A.rnd (a.val - b.val)| :=
        fun a b => rnd_abs_rnd _
      have z : ∀ a b : Doubles A, Dbl.eq (Dbl.abs (a - b)) (Num.lit 0) =
          decide (A.rnd (a.val - b.val) = 0) := by
        intro a b
        rw [Bool.eq_iff_iff, eq_zero_iff, e, abs_eq_zero, decide_eq_true_eq]
      simp only [List.tail_cons, List.zip_cons_cons, List.forall_mem_cons]
      rw [← and_assoc]
      refine and_congr ?_ Iff.rfl
      by_cases h1 : A.rnd (a.translation.x.val - b.translation.x.val) = 0 <;>
        by_cases h2 : A.rnd (a.translation.y.val - b.translation.y.val) = 0 <;>
        simp [z, e, h1, h2, cappedD_step, and_assoc]

/-- What the step cap comes down to. -/
def StepExact (dr : SwerveDrivetrain (Doubles A)) (dt : ℝ) : Prop :=
  ∀ m ∈ dr.modules, ∀ p ∈ dr.modules.zip dr.modules.tail,
    (A.rnd (p.1.translation.x.val - p.2.translation.x.val) ≠ 0 →
      dt * m.wheelRadius.val * m.wheelMaxAngularVelocity.val ≤
        |A.rnd (p.1.translation.x.val - p.2.translation.x.val)|) ∧
    (A.rnd (p.1.translation.y.val - p.2.translation.y.val) ≠ 0 →
      dt * m.wheelRadius.val * m.wheelMaxAngularVelocity.val ≤
        |A.rnd (p.1.translation.y.val - p.2.translation.y.val)|)

theorem stepExact_iff (σ : ℕ → ℝ) (dr : SwerveDrivetrain (Doubles A)) (v : ℕ) :
    (∀ md ∈ dr.modules, ((stepCap (minWidth dr.modules) v md).map val).Holds σ) ↔
      StepExact dr (σ v) := by
  refine forall₂_congr fun md _ => ?_
  have h1 : ((stepCap (minWidth dr.modules) v md).map val).Holds σ ↔
      CappedD (σ v * md.wheelRadius.val * md.wheelMaxAngularVelocity.val) (minWidth dr.modules) := by
    rw [stepCap.eq_def]
    cases minWidth dr.modules <;> simp [Con.map, Con.Holds, CappedD]
  rw [h1, minWidth, cappedD_loop]
  simp only [CappedD, true_and]

theorem gap_robotVal (dr : SwerveDrivetrain (Doubles A)) (g : ℝ) :
    Gap (robotVal dr) g ↔ g ≠ 0 ∧ ∃ p ∈ dr.modules.zip dr.modules.tail,
      g = |p.1.translation.x.val - p.2.translation.x.val| ∨
      g = |p.1.translation.y.val - p.2.translation.y.val| := by
  simp only [Gap, robotVal, ← List.map_tail, List.zip_map, List.mem_map]
  refine and_congr Iff.rfl ⟨?_, ?_⟩
  · rintro ⟨a, b, ⟨⟨p, q⟩, hp, he⟩, h⟩
    simp only [Prod.map_apply, Prod.mk.injEq] at he
    obtain ⟨rfl, rfl⟩ := he
    exact ⟨_, hp, h⟩
  · rintro ⟨⟨p, q⟩, hp, h⟩
    exact ⟨_, _, ⟨_, hp, rfl⟩, h⟩

theorem le_abs_rnd (x : ℝ) : (1 - A.u) * |x| - A.η ≤ |A.rnd x| := by
  have h := A.error x
  have := abs_sub_abs_le_abs_sub x (A.rnd x)
  rw [abs_sub_comm] at this
  linarith

theorem stepExact_guaranteed {dr : SwerveDrivetrain (Doubles A)} {dt : ℝ} (h : StepExact dr dt) :
    StepGuaranteed A (robotVal dr) dt := by
  intro m hm g hg hη
  obtain ⟨m', hm', rfl⟩ := List.mem_map.mp hm
  obtain ⟨-, p, hp, e⟩ := (gap_robotVal dr g).mp hg
  have key : ∀ z, g = |z| → A.rnd z ≠ 0 ∧ |A.rnd z| ≤ (1 + A.u) * g + A.η := by
    rintro z rfl
    refine ⟨?_, rnd_abs_le z⟩
    intro h0
    have := le_abs_rnd (A := A) z
    rw [h0, abs_zero] at this
    linarith
  obtain ⟨hx, hy⟩ := h m' hm' p hp
  rcases e with e | e
  · exact (hx (key _ e).1).trans (key _ e).2
  · exact (hy (key _ e).1).trans (key _ e).2

theorem stepExact_enough {dr : SwerveDrivetrain (Doubles A)} {dt : ℝ}
    (h : StepEnough A (robotVal dr) dt) : StepExact dr dt := by
  intro m hm p hp
  have hm' : moduleVal m ∈ (robotVal dr).modules := List.mem_map_of_mem hm
  have key : ∀ z, (|z| = |p.1.translation.x.val - p.2.translation.x.val| ∨
      |z| = |p.1.translation.y.val - p.2.translation.y.val|) → A.rnd z ≠ 0 →
      dt * m.wheelRadius.val * m.wheelMaxAngularVelocity.val ≤ |A.rnd z| := by
    intro z hz h0
    have hz0 : |z| ≠ 0 := by
      intro h; rw [abs_eq_zero] at h; rw [h, rnd_zero] at h0; exact h0 rfl
    exact (h _ hm' |z| ((gap_robotVal dr _).mpr ⟨hz0, p, hp, hz⟩)).trans (le_abs_rnd z)
  exact ⟨key _ (.inl rfl), key _ (.inr rfl)⟩

/-! ### dynamics -/

theorem looseSq_bound (x : ℝ) : A.rnd (A.rnd x * A.rnd x) ≤ looseSq A |x| := by
  have h1 := (rnd_sq_bounds (A := A) (A.rnd x)).2
  have h2 := rnd_abs_le (A := A) x
  have h3 : A.rnd x ^ 2 ≤ ((1 + A.u) * |x| + A.η) ^ 2 := by
    rw [← sq_abs]; exact pow_le_pow_left₀ (abs_nonneg _) h2 2
  have := mul_le_mul_of_nonneg_left h3 (show 0 ≤ 1 + A.u by linarith [A.u_nonneg])
  rw [looseSq]; linarith

theorem u_lt_one (A : Arith) : A.u < 1 := lt_of_le_of_lt A.small (by norm_num)

theorem tightSq_bound (x : ℝ) : tightSq A |x| ≤ A.rnd (A.rnd x * A.rnd x) := by
  have h1 := (rnd_sq_bounds (A := A) (A.rnd x)).1
  have h2 := le_abs_rnd (A := A) x
  have h3 : max 0 ((1 - A.u) * |x| - A.η) ^ 2 ≤ A.rnd x ^ 2 := by
    rw [← sq_abs (A.rnd x)]
    exact pow_le_pow_left₀ (le_max_left _ _) (max_le (abs_nonneg _) h2) 2
  have := mul_le_mul_of_nonneg_left h3 (show 0 ≤ 1 - A.u by linarith [u_lt_one A])
  rw [tightSq]; linarith

theorem eff_maxSpeed (m : SwerveModule (Doubles A)) : maxSpeed (effModule m) ^ 2 =
    A.rnd (A.rnd (m.wheelRadius.val * m.wheelMaxAngularVelocity.val) *
      A.rnd (m.wheelRadius.val * m.wheelMaxAngularVelocity.val)) := by
  simp [maxSpeed, effModule, Real.sq_sqrt (rnd_sq_nonneg _)]

theorem eff_maxForce (m : SwerveModule (Doubles A)) : maxForce (effModule m) ^ 2 =
    A.rnd (A.rnd (m.wheelMaxTorque.val / m.wheelRadius.val) *
      A.rnd (m.wheelMaxTorque.val / m.wheelRadius.val)) := by
  simp [maxForce, effModule, Real.sq_sqrt (rnd_sq_nonneg _)]

theorem eff_get (dr : SwerveDrivetrain (Doubles A)) (j : Fin (effRobot dr).modules.length)
    (hj : (j : ℕ) < dr.modules.length) : (effRobot dr).modules[j] = effModule dr.modules[(j : ℕ)] :=
  List.getElem_map ..

theorem val_get (dr : SwerveDrivetrain (Doubles A)) (j : Fin (robotVal dr).modules.length)
    (hj : (j : ℕ) < dr.modules.length) : (robotVal dr).modules[j] = moduleVal dr.modules[(j : ℕ)] :=
  List.getElem_map ..

theorem sums_eq (dr : SwerveDrivetrain (Doubles A)) (s : State) (F : ℕ → ℂ) :
    ∑ j : Fin (effRobot dr).modules.length, F j = ∑ j : Fin (robotVal dr).modules.length, F j ∧
    ∑ j : Fin (effRobot dr).modules.length, torque (lever s (effRobot dr).modules[j]) (F j) =
      ∑ j : Fin (robotVal dr).modules.length, torque (lever s (robotVal dr).modules[j]) (F j) := by
  have h : (effRobot dr).modules.length = (robotVal dr).modules.length := by
    simp [effRobot, robotVal]
  constructor
  · exact Fintype.sum_equiv (finCongr h) _ _ fun j => rfl
  · refine Fintype.sum_equiv (finCongr h) _ _ fun j => ?_
    have hj : (j : ℕ) < dr.modules.length := by simpa [effRobot] using j.2
    rw [eff_get dr j hj, val_get dr (finCongr h j) hj]
    rfl

theorem dynamicsD_guaranteed {dr : SwerveDrivetrain (Doubles A)} {s : State} {F : ℕ → ℂ}
    (h : Dynamics (effRobot dr) s F) : DynamicsD (looseSq A) (robotVal dr) s F := by
  obtain ⟨h1, h2, h3, h4⟩ := h
  constructor
  · exact (sums_eq dr s F).1.symm.trans h1
  · exact (sums_eq dr s F).2.symm.trans h2
  · intro m hm
    obtain ⟨m', hm', rfl⟩ := List.mem_map.mp hm
    have := h3 (effModule m') (List.mem_map_of_mem hm')
    have := pow_le_pow_left₀ (norm_nonneg _) this 2
    rw [eff_maxSpeed] at this
    exact this.trans (looseSq_bound _)
  · intro j
    have hj : (j : ℕ) < dr.modules.length := by simpa [robotVal] using j.2
    have := h4 ⟨j, by simpa [effRobot] using hj⟩
    have := pow_le_pow_left₀ (norm_nonneg _) this 2
    rw [eff_get dr _ hj, eff_maxForce] at this
    rw [val_get dr _ hj]
    exact this.trans (looseSq_bound _)

theorem dynamicsD_enough {dr : SwerveDrivetrain (Doubles A)} {s : State} {F : ℕ → ℂ}
    (h : DynamicsD (tightSq A) (robotVal dr) s F) : Dynamics (effRobot dr) s F := by
  obtain ⟨h1, h2, h3, h4⟩ := h
  constructor
  · exact (sums_eq dr s F).1.trans h1
  · exact (sums_eq dr s F).2.trans h2
  · intro m hm
    obtain ⟨m', hm', rfl⟩ := List.mem_map.mp hm
    have := h3 (moduleVal m') (List.mem_map_of_mem hm')
    have := this.trans (tightSq_bound _)
    refine le_of_sq_le_sq ?_ (abs_nonneg _)
    exact this.trans (eff_maxSpeed m').ge
  · intro j
    have hj : (j : ℕ) < dr.modules.length := by simpa [effRobot] using j.2
    have := h4 ⟨j, by simpa [robotVal] using hj⟩
    rw [val_get dr _ hj] at this
    rw [eff_get dr _ hj]
    have := this.trans (tightSq_bound _)
    refine le_of_sq_le_sq ?_ (abs_nonneg _)
    exact this.trans (eff_maxForce dr.modules[(j : ℕ)]).ge

/-! ### the whole problem -/

theorem obeysWith_mono {D : Type} {t : PathTable D} {step step' : ℝ → Prop}
    {dyn dyn' : State → (ℕ → ℂ) → Prop} {means means' : Constraint D → State → Prop} {T : Traj}
    (h : ObeysWith t step dyn means T) (h1 : ∀ x, step x → step' x)
    (h2 : ∀ s F, dyn s F → dyn' s F) (h3 : ∀ c s, means c s → means' c s) :
    ObeysWith t step' dyn' means' T :=
  ⟨h.interval, fun n hn => h2 _ _ (h.dynamics n hn), h.time, fun s hs => h1 _ (h.stepCap s hs),
    fun w hw c hc => h3 _ _ (h.instant w hw c hc),
    fun s hs c hc n hn => h3 _ _ (h.continuous s hs c hc n hn)⟩

theorem obeysWith_congr {D : Type} {t : PathTable D} {step : ℝ → Prop}
    {dyn : State → (ℕ → ℂ) → Prop} {means : Constraint D → State → Prop} {m : ℕ}
    (hF : ∀ s F F', (∀ j < m, F j = F' j) → dyn s F → dyn s F') {T T' : Traj}
    (h : Traj.Agree (sampleCount t.counts) m t.counts.length T T')
    (o : ObeysWith t step dyn means T) : ObeysWith t step dyn means T' := by
  have hs : ∀ s < t.counts.length, ∀ n ∈ segmentSamples t.counts s, n < sampleCount t.counts := by
    intro s hs n hn
    rw [segmentSamples, Finset.mem_Ioc, waypointSample, waypointSample] at hn
    have := sum_take_le t.counts (s + 1)
    simp only [sampleCount]; omega
  constructor
  · intro s hs' n hn
    have := hs s hs' n hn
    rw [← h.state n this, ← h.state (n - 1) (by omega), ← h.dt s hs']
    exact o.interval s hs' n hn
  · intro n hn
    rw [← h.state n hn]
    exact hF _ _ _ (h.force n hn) (o.dynamics n hn)
  · intro s hs; rw [← h.dt s hs]; exact o.time s hs
  · intro s hs; rw [← h.dt s hs]; exact o.stepCap s hs
  · intro w hw c hc
    have := sum_take_le t.counts w
    rw [← h.state _ (by simp only [sampleCount, waypointSample]; omega)]
    exact o.instant w hw c hc
  · intro s hs' c hc n hn
    rw [← h.state n (hs s hs' n hn)]
    exact o.continuous s hs' c hc n hn

theorem dynamics_forces {dr : SwerveDrivetrain ℝ} {s : State} {F F' : ℕ → ℂ}
    (h : ∀ j < dr.modules.length, F j = F' j) (o : Dynamics dr s F) : Dynamics dr s F' := by
  refine ⟨?_, ?_, o.speed, ?_⟩
  · rw [← o.force]; exact Finset.sum_congr rfl fun j _ => (h j j.2).symm
  · rw [← o.torque]; exact Finset.sum_congr rfl fun j _ => by rw [h j j.2]
  · intro j; rw [← h j j.2]; exact o.limit j

theorem feasibleD_closed (b : Builder (Doubles A)) (dr : SwerveDrivetrain (Doubles A))
    (sol : SwerveSolution (Doubles A)) (handle : ℤ) (σ : ℕ → ℝ) :
    (∀ c ∈ (closedGenerator b.path dr b.controlIntervalCounts sol handle).problem.cons,
      (c.map val).Holds σ) ↔
      ObeysWith (table b) (StepExact dr) (Dynamics (effRobot dr)) Exact
        (decode (closedGenerator b.path dr b.controlIntervalCounts sol handle).vars σ) := by
  have hlen : (effRobot dr).modules.length = dr.modules.length := by simp [effRobot]
  have hmap : ∀ l : List (Con (Doubles A)), (∀ c ∈ l, (c.map val).Holds σ) ↔
      ∀ c ∈ l.map (Con.map val), c.Holds σ := by
    intro l; simp
  refine holds_with b dr sol handle σ (fun c => (c.map val).Holds σ) _ _ _ (stepExact_iff σ dr)
    ?_ ?_ ?_ ?_ ?_
  · intro v
    simp [Con.map, Con.Holds]
  · intro n n' v
    rw [hmap, map_kinCons]
    exact kinCons_iff σ _ _ _ (sampleVars_defined σ _ _) (sampleVars_defined σ _ _)
  · intro n
    rw [hmap, map_dynCons, dynCons_iff, hlen]
  · intro s F F' h
    exact dynamics_forces (by rwa [hlen])
  · intro c n
    exact satisfiesD_iff σ c (sampleIds dr.modules.length n)

theorem exact_guaranteed (hε : A.ε ≤ 1 / 8) (c : Constraint (Doubles A)) (s : State)
    (h : Exact c s) : Guaranteed c s := by
  let σ : ℕ → ℝ := fun k => [s.pos.re, s.pos.im, s.heading.re, s.heading.im, s.vel.re, s.vel.im,
    s.omega, s.acc.re, s.acc.im, s.alpha].getD k 0
  let i : VarIds := ⟨0, 1, 2, 3, 4, 5, 6, 7, 8, 9⟩
  have e : i.state σ = s := rfl
  rw [← e]
  exact C75_guaranteed_partial hε σ c i ((satisfiesD_iff σ c i).mpr (by rwa [e]))

theorem exact_enough (c : Constraint (Doubles A)) (s : State) (h : Enough c s) : Exact c s := by
  let σ : ℕ → ℝ := fun k => [s.pos.re, s.pos.im, s.heading.re, s.heading.im, s.vel.re, s.vel.im,
    s.omega, s.acc.re, s.acc.im, s.alpha].getD k 0
  let i : VarIds := ⟨0, 1, 2, 3, 4, 5, 6, 7, 8, 9⟩
  have e : i.state σ = s := rfl
  have := (satisfiesD_iff σ c i).mp (C75_enough σ c i (by rwa [e]))
  rwa [e] at this

/-- C76: an assignment that satisfies all generated constraints, with their constants computed in
double arithmetic, encodes a trajectory that obeys path and drivetrain up to the rounding of the
constants: forces, torques and the integration of the motion exactly, limits within their rounding
errors. -/
theorem C76_guaranteed (hε : A.ε ≤ 1 / 8) (b : Builder (Doubles A)) (hb : Reachable b)
    (dr : SwerveDrivetrain (Doubles A)) (hr : Ready b dr)
    (_hradius : ∀ m ∈ dr.modules, m.wheelRadius.val ≠ 0) (handle : ℤ) :
    ∃ g, Generator.construct b handle = .ok g ∧
      ∀ σ, (∀ c ∈ g.problem.cons, (c.map val).Holds σ) →
        ObeysLoosely (table b) dr (decode g.vars σ) := by
  obtain ⟨sol, -, -, hc⟩ := construct_closed hb hr handle
  refine ⟨_, hc, fun σ h => ?_⟩
  exact obeysWith_mono ((feasibleD_closed b dr sol handle σ).mp h) (fun _ => stepExact_guaranteed)
    (fun _ _ => dynamicsD_guaranteed) (exact_guaranteed hε)

/-- C76: conversely every trajectory that obeys path and drivetrain with that much to spare is
encoded by an assignment satisfying all generated constraints. -/
theorem C76_enough (b : Builder (Doubles A)) (hb : Reachable b)
    (dr : SwerveDrivetrain (Doubles A)) (hr : Ready b dr)
    (_hradius : ∀ m ∈ dr.modules, m.wheelRadius.val ≠ 0) (handle : ℤ) :
    ∃ g, Generator.construct b handle = .ok g ∧
      ∀ T, ObeysTightly (table b) dr T → ∃ σ, (∀ c ∈ g.problem.cons, (c.map val).Holds σ) ∧
        Traj.Agree (sampleCount (table b).counts) dr.modules.length
          (table b).counts.length (decode g.vars σ) T := by
  obtain ⟨sol, -, -, hc⟩ := construct_closed hb hr handle
  refine ⟨_, hc, fun T h => ?_⟩
  have he := encode_decode dr.modules.length (sampleCount (table b).counts)
    (table b).counts.length T
  refine ⟨_, (feasibleD_closed b dr sol handle _).mpr ?_, he⟩
  have hlen : (effRobot dr).modules.length = dr.modules.length := by simp [effRobot]
  refine obeysWith_congr (m := dr.modules.length) (dyn := Dynamics (effRobot dr))
    (fun s F F' h => dynamics_forces (by rwa [hlen])) (T := T)
    ⟨fun n hn => (he.state n hn).symm, fun n hn j hj => (he.force n hn j hj).symm,
      fun s hs => (he.dt s hs).symm⟩ ?_
  exact obeysWith_mono h (fun _ => stepExact_enough) (fun _ _ => dynamicsD_enough) exact_enough

theorem map_totalTimeExpr (dts : List (ℕ × ℕ)) (acc : Expr (Doubles A))
    (h : ∀ x ∈ dts, x.2 < 2 ^ 31) :
    (totalTimeExpr dts acc).map val = totalTimeExpr dts (acc.map val) := by
  induction dts generalizing acc with
  | nil => rfl
  | cons x dts ih =>
    rw [totalTimeExpr, List.foldl_cons]
    change (totalTimeExpr dts _).map val = totalTimeExpr dts _
    rw [ih _ fun y hy => h y (List.mem_cons_of_mem _ hy)]
    have hx := h x List.mem_cons_self
    have e : (Dbl.ofInt (toInt32 x.2) : Doubles A).val = (Dbl.ofInt (toInt32 x.2) : ℝ) := by
      change A.rnd ((toInt32 x.2 : ℤ) : ℝ) = ((toInt32 x.2 : ℤ) : ℝ)
      rw [toInt32_small hx]
      refine A.int _ ?_
      rw [abs_of_nonneg (by positivity)]
      have : (x.2 : ℤ) < 2 ^ 31 := by exact_mod_cast hx
      linarith
    rw [map_add, map_mul, map_const, map_var, e]

/-- C76: the objective is exactly the duration, in double arithmetic too: the counts (below 2^31)
are exact. -/
theorem C76_objective (b : Builder (Doubles A)) (hb : Reachable b)
    (dr : SwerveDrivetrain (Doubles A)) (hr : Ready b dr)
    (hN : ∀ n ∈ (table b).counts, n < 2 ^ 31) (handle : ℤ) (g : Generator (Doubles A))
    (hg : Generator.construct b handle = .ok g) :
    ∃ e, g.problem.cost = some e ∧ ∀ σ, (e.map val).eval σ =
      ∑ s : Fin (table b).counts.length, ((table b).counts[s] : ℝ) * (decode g.vars σ).dt s := by
  obtain ⟨sol, -, -, hc⟩ := construct_closed hb hr handle
  rw [hc] at hg
  obtain rfl := Except.ok.inj hg
  refine ⟨_, rfl, fun σ => ?_⟩
  have hN' : ∀ n ∈ b.controlIntervalCounts, n < 2 ^ 31 := hN
  rw [map_totalTimeExpr _ _ fun x hx => hN' _ (List.of_mem_zip hx).2, totalTimeExpr_eval]
  have hz : ∀ (N : List ℕ) (a : ℕ), (∀ n ∈ N, n < 2 ^ 31) → (((List.range' a N.length).zip N).map
      fun x => σ x.1 * (toInt32 x.2 : ℝ)) =
      List.ofFn fun s : Fin N.length => (N[s] : ℝ) * σ (a + s) := by
    intro N a hN
    apply List.ext_getElem (by simp)
    intro i h1 h2
    have : i < N.length := by simpa using h2
    simp [mul_comm, toInt32_small (hN N[i] (List.getElem_mem _))]
  rw [hz _ _ hN', List.sum_ofFn, map_zero]
  have h0 : (Num.lit 0 : Expr ℝ).eval σ = 0 := by simp [Num.lit]
  rw [h0, zero_add]
  refine Finset.sum_congr rfl fun s _ => ?_
  simp [decode, closedGenerator, closedVars, table]

/-! ### A path in IEEE doubles -/

/-- A robot with two modules. -/
noncomputable def barRobot : SwerveDrivetrain (Doubles binary64) where
  mass := dbl 2
  moi := dbl 1
  modules := [⟨⟨dbl 1, dbl 0⟩, dbl 1, dbl 3, dbl 8⟩, ⟨⟨dbl (-1), dbl 0⟩, dbl 1, dbl 3, dbl 8⟩]

/-- Drive one metre in one control interval, at no more than 4 m/s. -/
noncomputable def barOps : List (Op (Doubles binary64)) :=
  [.setDrivetrain barRobot, .poseWpt 0 (dbl 0) (dbl 0) (dbl 0), .poseWpt 1 (dbl 1) (dbl 0) (dbl 0),
    .controlIntervalCounts [1], .sgmtConstraint 0 1 (.linearVelocityMaxMagnitude (dbl 4))]

/-- The builder after these calls. -/
noncomputable def barBuilder : Builder (Doubles binary64) := run true barOps Builder.new

theorem bar_table : (table barBuilder).waypoints = 2 ∧ (table barBuilder).counts = [1] ∧
    (table barBuilder).drivetrain = some barRobot ∧
    (table barBuilder).instant 0 =
      [.poseEquality (dbl 0) (dbl 0) (dbl 0), .linearVelocityMaxMagnitude (dbl 4)] ∧
    (table barBuilder).instant 1 =
      [.poseEquality (dbl 1) (dbl 0) (dbl 0), .linearVelocityMaxMagnitude (dbl 4)] ∧
    (table barBuilder).continuous 0 = [.linearVelocityMaxMagnitude (dbl 4)] := by
  have r0 := run_snoc (b := (Builder.new : Builder (Doubles binary64))) (asserts := true) (ops := [])
    rfl (op := .setDrivetrain barRobot) rfl
  generalize ht0 : Builder.setDrivetrain barRobot (Builder.new : Builder _) = b0 at r0
  obtain ⟨b1, e1, t1⟩ := C12_pose_wpt b0 ⟨_, _, r0⟩ 0 (by norm_num) (dbl 0) (dbl 0) (dbl 0)
  have r1 := run_snoc r0 (op := .poseWpt 0 (dbl 0) (dbl 0) (dbl 0)) e1
  obtain ⟨b2, e2, t2⟩ := C12_pose_wpt b1 ⟨_, _, r1⟩ 1 (by norm_num) (dbl 1) (dbl 0) (dbl 0)
  have r2 := run_snoc r1 (op := .poseWpt 1 (dbl 1) (dbl 0) (dbl 0)) e2
  have r3 := run_snoc r2 (op := .controlIntervalCounts [1]) rfl
  obtain ⟨b4, e4, t4⟩ := C11_sgmt_constraint true _ ⟨_, _, r3⟩ 0 1 (by norm_num) (by norm_num)
    (.linearVelocityMaxMagnitude (dbl 4))
  have r4 := run_snoc r3 (op := .sgmtConstraint 0 1 (.linearVelocityMaxMagnitude (dbl 4))) e4
  have hb : barBuilder = b4 := r4.symm
  have t3 : table (b2.setControlIntervalCounts [1]) = { table b2 with counts := [1] } := rfl
  rw [hb, t4, t3, t2, t1, ← ht0]
  simp only [PathTable.requireAlong, PathTable.reach, PathTable.guessAt,
    PathTable.requireAt, table, Builder.setDrivetrain, Builder.new]
  simp

/-- Accelerate for half a second. -/
noncomputable def barTraj : Traj where
  state n := if n = 0 then ⟨0, 1, 0, 0, 0, 0⟩ else ⟨1, 1, 2, 4, 0, 0⟩
  force n _ := if n = 0 then 0 else 4
  dt _ := 1 / 2

theorem dbl_small (z : ℤ) (h : |z| ≤ 100) : (dbl z).val = z := dbl_val z (h.trans (by norm_num))

theorem u64 : binary64.u = 2 ^ (-53 : ℤ) := rfl

theorem eta64 : binary64.η ≤ 2 ^ (-60 : ℤ) := zpow_le_zpow_right₀ (by norm_num) (by norm_num)

theorem tight_ok (x y : ℝ) (hy : 0 ≤ y) (hx : y + 1 ≤ x) (hx' : x ≤ 10) : y ^ 2 ≤ tightSq binary64 x := by
  have hη := eta64
  have hη0 := eta_nonneg binary64
  have hu := u64
  rw [tightSq, hu]
  norm_num at hη
  have h1 : y + 1 / 2 ≤ max 0 ((1 - 2 ^ (-53 : ℤ)) * x - binary64.η) := by
    refine le_trans ?_ (le_max_right _ _)
    norm_num; nlinarith
  have h2 : (y + 1 / 2) ^ 2 ≤ max 0 ((1 - 2 ^ (-53 : ℤ)) * x - binary64.η) ^ 2 :=
    pow_le_pow_left₀ (by linarith) h1 2
  have h3 : y ≤ 10 := by linarith
  generalize max 0 ((1 - 2 ^ (-53 : ℤ)) * x - binary64.η) ^ 2 = z at *
  norm_num
  nlinarith

theorem bar_obeys : ObeysTightly (table barBuilder) barRobot barTraj := by
  obtain ⟨-, ht, -, h0, h1, hc⟩ := bar_table
  have hd : ∀ z : ℤ, |z| ≤ 100 → (dbl z).val = z := dbl_small
  have d0 : (dbl 0).val = 0 := by simpa using hd 0 (by norm_num)
  have d1 : (dbl 1).val = 1 := by simpa using hd 1 (by norm_num)
  have d1' : (dbl (-1)).val = -1 := by simpa using hd (-1) (by norm_num)
  have d2 : (dbl 2).val = 2 := by simpa using hd 2 (by norm_num)
  have d3 : (dbl 3).val = 3 := by simpa using hd 3 (by norm_num)
  have d4 : (dbl 4).val = 4 := by simpa using hd 4 (by norm_num)
  have d8 : (dbl 8).val = 8 := by simpa using hd 8 (by norm_num)
  have hR : robotVal barRobot = ⟨2, 1, [⟨⟨1, 0⟩, 1, 3, 8⟩, ⟨⟨-1, 0⟩, 1, 3, 8⟩]⟩ := by
    simp [robotVal, barRobot, moduleVal, d0, d1, d1', d2, d3, d8]
  have hu : unitVec 0 = 1 := by simp [unitVec]
  have hη := eta64
  have seg : ∀ s < (table barBuilder).counts.length,
      ∀ n ∈ segmentSamples (table barBuilder).counts s, s = 0 ∧ n = 1 := by
    intro s hs n hn
    rw [ht] at hs hn
    have : s = 0 := by simpa using hs
    subst this
    simp only [segmentSamples, waypointSample, Finset.mem_Ioc, List.take_zero, List.sum_nil,
      zero_add, List.take_succ_cons, List.sum_cons] at hn
    omega
  have hlim : ∀ v : ℂ, ‖v‖ ≤ 2 → Enough (A := binary64) (.linearVelocityMaxMagnitude (dbl 4))
      ⟨0, 1, v, 0, 0, 0⟩ := by
    intro v hv
    right
    simp only [d4, u64]
    norm_num at hη ⊢
    nlinarith [norm_nonneg v]
  have hcos : binary64.rnd (binary64.cos 0) = 1 := by
    change rnd64 (Real.cos 0) = 1
    rw [Real.cos_zero]; exact_mod_cast rnd64_int 1 (by norm_num)
  have hsin : binary64.rnd (binary64.sin 0) = 0 := by
    change rnd64 (Real.sin 0) = 0
    rw [Real.sin_zero]; exact_mod_cast rnd64_int 0 (by norm_num)
  have hpose : ∀ x : ℤ, ((x : ℝ) : ℂ) = ⟨(dbl x).val, (dbl 0).val⟩ → ∀ v a,
      Enough (A := binary64) (.poseEquality (dbl x) (dbl 0) (dbl 0)) ⟨(x : ℝ), 1, v, a, 0, 0⟩ := by
    intro x hx v a
    refine ⟨hx, 1, by simp, ?_⟩
    rw [d0, hcos, hsin]
    apply Complex.ext <;> simp
  constructor
  · intro s hs n hn
    obtain ⟨rfl, rfl⟩ := seg s hs n hn
    constructor <;> simp [barTraj, hu]
    all_goals norm_num
  · intro n hn
    rw [hR]
    by_cases hn0 : n = 0
    · subst hn0
      have p : ∀ x, 1 ≤ x → x ≤ 10 → (0 : ℝ) ≤ tightSq binary64 x := fun x h h' => by
        have := tight_ok x 0 le_rfl (by linarith) h'
        simpa using this
      refine ⟨?_, ?_, ?_, ?_⟩
      · simp [barTraj]
      · simp [barTraj, torque]
      · intro m hm
        simp only [List.mem_cons, List.not_mem_nil, or_false] at hm
        rcases hm with rfl | rfl <;> simp [barTraj, wheelVelocity, maxSpeed] <;>
          exact p 3 (by norm_num) (by norm_num)
      · intro j
        fin_cases j <;> simp [barTraj, maxForce] <;> exact p 8 (by norm_num) (by norm_num)
    · refine ⟨?_, ?_, ?_, ?_⟩
      · simp [barTraj, hn0]
      · simp [barTraj, hn0, torque, lever, vec, Fin.sum_univ_two]
      · intro m hm
        simp only [List.mem_cons, List.not_mem_nil, or_false] at hm
        have := tight_ok 3 2 (by norm_num) (by norm_num) (by norm_num)
        rcases hm with rfl | rfl <;> simpa [barTraj, hn0, wheelVelocity, maxSpeed] using this
      · intro j
        have := tight_ok 8 4 (by norm_num) (by norm_num) (by norm_num)
        fin_cases j <;> simpa [barTraj, hn0, maxForce] using this
  · intro s _; simp [barTraj]
  · intro s _ m hm g hg
    rw [hR] at hm hg
    have hg2 : g = 2 := by
      obtain ⟨hg, a, b, hab, h⟩ := hg
      simp only [List.tail_cons, List.zip_cons_cons, List.zip_nil_right, List.mem_cons,
        List.not_mem_nil, or_false, Prod.mk.injEq] at hab
      obtain ⟨rfl, rfl⟩ := hab
      rcases h with rfl | rfl
      · norm_num
      · norm_num at hg
    simp only [List.mem_cons, List.not_mem_nil, or_false] at hm
    rw [hg2, u64]
    norm_num at hη
    rcases hm with rfl | rfl <;> norm_num [barTraj] <;> linarith
  · intro w hw c hcw
    rw [ht] at hw ⊢
    have hw : w = 0 ∨ w = 1 := by simp at hw; omega
    rcases hw with rfl | rfl
    · rw [h0] at hcw
      simp only [List.mem_cons, List.not_mem_nil, or_false] at hcw
      rcases hcw with rfl | rfl
      · have := hpose 0 (by rw [d0]; apply Complex.ext <;> simp) 0 0
        simpa [barTraj, waypointSample] using this
      · exact hlim 0 (by simp)
    · rw [h1] at hcw
      simp only [List.mem_cons, List.not_mem_nil, or_false] at hcw
      rcases hcw with rfl | rfl
      · have := hpose 1 (by rw [d0, d1]; apply Complex.ext <;> simp) 2 4
        simpa [barTraj, waypointSample] using this
      · exact hlim 2 (by simp)
  · intro s hs c hcw n hn
    obtain ⟨rfl, rfl⟩ := seg s hs n hn
    rw [hc] at hcw
    obtain rfl := List.mem_singleton.mp hcw
    exact hlim 2 (by simp)

theorem bar_ready : Ready barBuilder barRobot := by
  obtain ⟨h1, h2, h3, -⟩ := bar_table
  exact ⟨h3, by rw [h1, h2]; simp, by rw [h2]; simp [sampleCount]⟩

/-- The hypotheses of C76 hold for this path, and its constraints have a solution that moves the
robot by one metre. -/
example : ∃ g σ, Generator.construct barBuilder 0 = .ok g ∧
    (∀ c ∈ g.problem.cons, (c.map val).Holds σ) ∧
    ObeysLoosely (table barBuilder) barRobot (decode g.vars σ) ∧
    ((decode g.vars σ).state 1).pos = 1 := by
  have hreach : Reachable barBuilder := ⟨true, barOps, rfl⟩
  have hrad : ∀ m ∈ barRobot.modules, m.wheelRadius.val ≠ 0 := by
    have d1 : (dbl 1).val = 1 := by simpa using dbl_small 1 (by norm_num)
    simp [barRobot, d1]
  have hε : binary64.ε ≤ 1 / 8 := by
    have : (2 : ℝ) ^ (-1075 : ℤ) ≤ 2 ^ (-53 : ℤ) := binary64.tiny
    change (2 : ℝ) ^ (-53 : ℤ) + 2 ^ (-1075 : ℤ) ≤ 1 / 8
    generalize (2 : ℝ) ^ (-1075 : ℤ) = t at *
    norm_num at this ⊢; linarith
  obtain ⟨g, hg, h1⟩ := C76_guaranteed hε barBuilder hreach barRobot bar_ready hrad 0
  obtain ⟨g', hg', h2⟩ := C76_enough barBuilder hreach barRobot bar_ready hrad 0
  obtain rfl : g = g' := Except.ok.inj (hg.symm.trans hg')
  obtain ⟨σ, hσ, hT⟩ := h2 barTraj bar_obeys
  refine ⟨g, σ, hg, hσ, h1 σ hσ, ?_⟩
  rw [hT.state 1 (by rw [bar_table.2.1]; simp [sampleCount])]
  simp [barTraj]

end Trajopt.Props
