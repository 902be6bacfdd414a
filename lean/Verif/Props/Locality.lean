import Verif.Spec.Locality
import Verif.Spec.Trajectory
import Verif.Props.Independent

/-!
# C111: which variables a constraint involves
-/

set_option autoImplicit false

namespace Trajopt.Props

open Spec

variable {D : Type}

/-- All variables of the expression are as `P` says. -/
def Within (P : ℕ → Prop) (e : Expr D) : Prop := ∀ i, Mentions i e → P i

/-- All variables of the constraint are as `P` says. -/
def WithinCon (P : ℕ → Prop) (c : Con D) : Prop := ∀ i, Involves c i → P i

section Rules
variable (P : ℕ → Prop) (a b : Expr D)

theorem or_rule {p q : ℕ → Prop} : (∀ i, p i ∨ q i → P i) ↔ (∀ i, p i → P i) ∧ ∀ i, q i → P i :=
  ⟨fun h => ⟨fun i hi => h i (.inl hi), fun i hi => h i (.inr hi)⟩, fun h i hi => hi.elim (h.1 i) (h.2 i)⟩

theorem within_const (d : D) : Within P (.const d) := fun _ h => h.elim
theorem within_var (j : ℕ) : Within P (.var j : Expr D) ↔ P j := ⟨fun h => h j rfl, fun h _ e => e ▸ h⟩
theorem within_eq : WithinCon P (.eq a b) ↔ Within P a ∧ Within P b := or_rule P
theorem within_le : WithinCon P (.le a b) ↔ Within P a ∧ Within P b := or_rule P
theorem within_ge : WithinCon P (.ge a b) ↔ Within P a ∧ Within P b := or_rule P
theorem within_leInf : WithinCon P (.leInf a) ↔ Within P a := Iff.rfl

variable [Dbl D]
theorem within_lit (q : ℚ) : Within P (Num.lit q : Expr D) := fun _ h => h.elim
theorem within_add : Within P (a + b) ↔ Within P a ∧ Within P b := or_rule P
theorem within_sub : Within P (a - b) ↔ Within P a ∧ Within P b := or_rule P
theorem within_mul : Within P (a * b) ↔ Within P a ∧ Within P b := or_rule P
theorem within_div : Within P (a / b) ↔ Within P a ∧ Within P b := or_rule P
theorem within_hypot : Within P (Num.hypot a b) ↔ Within P a ∧ Within P b := or_rule P
theorem within_neg : Within P (-a) ↔ Within P a := Iff.rfl
theorem within_sin : Within P (Num.sin a) ↔ Within P a := Iff.rfl
theorem within_cos : Within P (Num.cos a) ↔ Within P a := Iff.rfl
theorem within_sign : Within P (Num.sign a) ↔ Within P a := Iff.rfl

end Rules

variable [Dbl D]

omit [Dbl D] in
theorem within_weaken {P Q : ℕ → Prop} (h : ∀ i, P i → Q i) {c : Con D} (hc : WithinCon P c) : WithinCon Q c :=
  fun i hi => h i (hc i hi)

theorem within_accumulate (P : ℕ → Prop) (l : List ℕ) (h : ∀ i ∈ l, P i) : Within P (accumulate l : Expr D) := by
  suffices H : ∀ (e : Expr D), Within P e → (∀ i ∈ l, P i) → Within P (l.foldl (fun acc f => acc + .var f) e) from
    H _ (within_lit P 0) h
  induction l with
  | nil => exact fun e h _ => h
  | cons i l ih =>
    intro e he hl
    refine ih (fun j hj => h j (by simp [hj])) _ ?_ fun j hj => hl j (by simp [hj])
    rw [within_add, within_var]
    exact ⟨he, hl i (by simp)⟩

/-- The variables of one sample. -/
def Slot (m n i : ℕ) : Prop := n * stride m ≤ i ∧ i < n * stride m + stride m

theorem slot_const {m n k : ℕ} (h : k < 10 + 2 * m) : Slot m n (n * stride m + k) := by
  constructor
  · omega
  · rw [show stride m = 10 + 2 * m from rfl]; omega

theorem within_torque (m n : ℕ) (mods : List (SwerveModule D)) (i : ℕ) (hi : i + mods.length ≤ m) (tau : Expr D)
    (ht : Within (Slot m n) tau) : Within (Slot m n) (torqueExpr m n mods i tau) := by
  induction mods generalizing i tau with
  | nil => exact ht
  | cons md rest ih =>
    simp only [List.length_cons] at hi
    rw [torqueExpr]
    refine ih _ (by omega) _ ?_
    simp only [Translation2.cross, Translation2.rotateBy, Translation2.toV, sampleVars, forceVars, within_add, within_mul,
      within_sub, within_var, within_const, ht, Nat.add_assoc, slot_const (show 2 < 10 + 2 * m by omega),
      slot_const (show 3 < 10 + 2 * m by omega), slot_const (show 10 + 2 * i < 10 + 2 * m by omega),
      slot_const (show 11 + 2 * i < 10 + 2 * m by omega), and_self]

theorem within_power (m n : ℕ) (mods : List (SwerveModule D)) (i : ℕ) (hi : i + mods.length ≤ m) :
    ∀ c ∈ powerList m n mods i, WithinCon (Slot m n) c := by
  induction mods generalizing i with
  | nil => simp [powerList]
  | cons md rest ih =>
    simp only [List.length_cons] at hi
    intro c hc
    rw [powerList, List.mem_append] at hc
    rcases hc with hc | hc
    · simp only [powerCons, List.mem_cons, List.not_mem_nil, or_false] at hc
      rcases hc with rfl | rfl <;>
      simp only [Translation2.squaredNorm, Translation2.rotateBy, Rotation2.neg, sampleVars, forceVars, within_le,
        within_add, within_mul, within_neg, within_sub, within_var, within_const, Nat.add_assoc,
        slot_const (show 2 < 10 + 2 * m by omega), slot_const (show 3 < 10 + 2 * m by omega),
        slot_const (show 4 < 10 + 2 * m by omega), slot_const (show 5 < 10 + 2 * m by omega),
        slot_const (show 6 < 10 + 2 * m by omega), slot_const (show 10 + 2 * i < 10 + 2 * m by omega),
        slot_const (show 11 + 2 * i < 10 + 2 * m by omega), and_self]
    · exact ih _ (by omega) c hc

theorem within_dyn (dr : SwerveDrivetrain D) (n : ℕ) :
    ∀ c ∈ dynCons dr n, WithinCon (Slot dr.modules.length n) c := by
  intro c hc
  simp only [dynCons, List.mem_append, List.mem_cons, List.not_mem_nil, or_false] at hc
  rcases hc with hc | rfl | rfl | rfl
  · exact within_power _ _ _ _ (by omega) c hc
  all_goals
    simp only [within_eq, within_mul, within_const, true_and, sampleVars, within_var]
    refine ⟨?_, slot_const (by omega)⟩
  · refine within_accumulate _ _ ?_
    simp only [List.mem_map, List.mem_range]
    rintro _ ⟨j, hj, rfl⟩
    rw [Nat.add_assoc]
    exact slot_const (by omega)
  · refine within_accumulate _ _ ?_
    simp only [List.mem_map, List.mem_range]
    rintro _ ⟨j, hj, rfl⟩
    rw [Nat.add_assoc]
    exact slot_const (by omega)
  · exact within_torque _ _ _ _ (by omega) _ (within_lit _ _)

theorem within_apply (m n : ℕ) (c : Constraint D) : ∀ e ∈ c.apply (sampleVars m n), WithinCon (Slot m n) e := by
  have h0 : Slot m n (n * stride m) := slot_const (k := 0) (by omega)
  have key : ∀ k < 10, Slot m n (n * stride m + k) := fun k hk => slot_const (by omega)
  intro e he
  have h1 := key 1 (by omega)
  have h2 := key 2 (by omega)
  have h3 := key 3 (by omega)
  have h4 := key 4 (by omega)
  have h5 := key 5 (by omega)
  have h6 := key 6 (by omega)
  have h7 := key 7 (by omega)
  have h8 := key 8 (by omega)
  clear key
  generalize Slot m n = P at *
  cases c <;> simp only [Constraint.apply, sampleVars, Pose2.eqCons, Translation2.eqCons, Rotation2.eqCons, if_true,
    Bool.false_eq_true, if_false, List.append_nil, List.cons_append, List.nil_append] at he
  case angularVelocityMaxMagnitude v =>
    split at he <;> simp only [List.mem_cons, List.not_mem_nil, or_false] at he <;> (try rcases he with rfl | rfl) <;>
    simp only [within_eq, within_le, within_ge, within_var, within_const, within_lit, h6, and_self]
  case linearAccelerationMaxMagnitude v =>
    split at he <;> simp only [List.mem_cons, List.not_mem_nil, or_false] at he <;> (try rcases he with rfl | rfl) <;>
    simp only [within_eq, within_le, within_var, within_const, within_lit, h7, h8, and_self,
      Translation2.squaredNorm, within_add, within_mul]
  case linearVelocityMaxMagnitude v =>
    split at he <;> simp only [List.mem_cons, List.not_mem_nil, or_false] at he <;> (try rcases he with rfl | rfl) <;>
    simp only [within_eq, within_le, within_var, within_const, within_lit, h4, h5, and_self,
      Translation2.squaredNorm, within_add, within_mul]
  all_goals
    simp only [List.mem_cons, List.not_mem_nil, or_false] at he
    (try rcases he with rfl | rfl | rfl | rfl) <;>
    simp only [within_eq, within_ge, within_var, within_const, within_lit, h0, h1, h2, h3, h4, h5, and_self,
      Translation2.squaredNorm, Translation2.dot, Translation2.add, Translation2.sub, Translation2.neg, Translation2.rotateBy,
      Translation2.toV, Rotation2.toV, Pose2.x, Pose2.y, linePointDistance, lpdMin, lpdMax, lpdLerp,
      within_add, within_sub, within_neg, within_mul, within_div, within_hypot, within_sign]

omit [Dbl D] in
theorem ofSample_iff {m S : ℕ} {dts : List ℕ} {n i : ℕ} :
    OfSample (closedVars m S dts) n i ↔ n < S ∧ Slot m n i := by
  have e : ∀ f : ℕ → ℕ, ((List.range S).map f)[n]? = some i ↔ n < S ∧ f n = i := by
    intro f
    by_cases h : n < S <;> simp [h]
  have e' : ∀ f : ℕ → List ℕ, (∃ l, ((List.range S).map f)[n]? = some l ∧ i ∈ l) ↔ n < S ∧ i ∈ f n := by
    intro f
    by_cases h : n < S <;> simp [h]
  simp only [OfSample, closedVars, e, e', ← and_or_left, List.mem_map, List.mem_range, Slot]
  refine and_congr_right fun _ => ?_
  rw [show stride m = 10 + 2 * m from rfl]
  generalize n * (10 + 2 * m) = a
  constructor
  · rintro (h | h | h | h | h | h | h | h | h | h | ⟨j, hj, h⟩ | ⟨j, hj, h⟩) <;> omega
  · rintro ⟨h1, h2⟩
    obtain ⟨k, rfl⟩ := Nat.exists_eq_add_of_le h1
    by_cases hk : k < 10
    · interval_cases k <;> simp
    · rcases Nat.even_or_odd' (k - 10) with ⟨j, hj | hj⟩
      · exact .inr <| .inr <| .inr <| .inr <| .inr <| .inr <| .inr <| .inr <| .inr <| .inr <| .inl ⟨j, by omega, by omega⟩
      · exact .inr <| .inr <| .inr <| .inr <| .inr <| .inr <| .inr <| .inr <| .inr <| .inr <| .inr ⟨j, by omega, by omega⟩

omit [Dbl D] in
theorem ofSegment_iff {m S a K : ℕ} {s i : ℕ} :
    OfSegment (closedVars m S (List.range' a K)) s i ↔ s < K ∧ i = a + s := by
  simp only [OfSegment, closedVars]
  by_cases h : s < K <;> simp [h, eq_comm]

/-- The parts of the generator built. -/
theorem closed_parts {b : Builder D} (hb : Reachable b) {dr : SwerveDrivetrain D} (hr : Ready b dr) {handle : ℤ}
    {g : Generator D} (hg : Generator.construct b handle = .ok g) :
    g.vars = closedVars dr.modules.length (1 + (table b).counts.sum)
      (List.range' ((1 + (table b).counts.sum) * stride dr.modules.length) (table b).counts.length) ∧
    g.problem.nvars = (1 + (table b).counts.sum) * stride dr.modules.length + (table b).counts.length ∧
    g.problem.cons = allCons b.path dr (table b).counts ∧
    g.problem.cost = some (totalTimeExpr ((List.range' ((1 + (table b).counts.sum) * stride dr.modules.length)
      (table b).counts.length).zip (table b).counts) (Num.lit 0)) := by
  obtain ⟨sol, -, -, hcl⟩ := construct_closed hb hr handle
  rw [hg] at hcl
  cases hcl
  exact ⟨rfl, rfl, rfl, rfl⟩

/-- C111: every constraint involves only the time step of one segment, or only variables of one sample, or
only those of two consecutive samples of a segment and its time step. -/
theorem C111_local (b : Builder D) (hb : Reachable b) (dr : SwerveDrivetrain D) (hr : Ready b dr) (handle : ℤ)
    (g : Generator D) (hg : Generator.construct b handle = .ok g) : ∀ c ∈ g.problem.cons,
    (∃ s < (table b).counts.length, ∀ i, Involves c i → OfSegment g.vars s i) ∨
    (∃ n < sampleCount (table b).counts, ∀ i, Involves c i → OfSample g.vars n i) ∨
    ∃ s < (table b).counts.length, ∃ n ∈ segmentSamples (table b).counts s, ∀ i, Involves c i →
      OfSample g.vars (n - 1) i ∨ OfSample g.vars n i ∨ OfSegment g.vars s i := by
  obtain ⟨hv, -, hcs, -⟩ := closed_parts hb hr hg
  intro c hc
  rw [hcs] at hc
  simp only [hv, ofSample_iff, ofSegment_iff]
  change (∃ s < (table b).counts.length, WithinCon _ c) ∨ (∃ n < sampleCount (table b).counts, WithinCon _ c) ∨
    ∃ s < (table b).counts.length, ∃ n ∈ segmentSamples (table b).counts s, WithinCon _ c
  generalize (table b).counts = N at *
  simp only [allCons, List.mem_append] at hc
  have hS : sampleCount N = 1 + N.sum := by simp [sampleCount, add_comm]
  have one : ∀ n < 1 + N.sum, WithinCon (Slot dr.modules.length n) c → ∃ n < sampleCount N,
      WithinCon (fun i => n < 1 + N.sum ∧ Slot dr.modules.length n i) c := by
    intro n hn h
    exact ⟨n, by omega, fun i hi => ⟨hn, h i hi⟩⟩
  rcases hc with ((((h | h) | h) | h) | h) | h
  · left
    simp only [List.mem_flatMap, List.mem_map, List.mem_range'_1] at h
    obtain ⟨dt, ⟨h1, h2⟩, md, _, rfl⟩ := h
    refine ⟨dt - (1 + N.sum) * stride dr.modules.length, by omega, ?_⟩
    simp only [stepCap]
    split
    all_goals
      simp only [within_leInf, within_le, within_mul, within_var, within_const, and_true]
      omega
  · left
    simp only [List.mem_map] at h
    obtain ⟨x, hx, rfl⟩ := h
    have := (List.of_mem_zip hx).1
    rw [List.mem_range'_1] at this
    refine ⟨x.1 - (1 + N.sum) * stride dr.modules.length, by omega, ?_⟩
    simp only [within_ge, within_var, within_lit, and_true]
    omega
  · right; right
    simp only [kinList, List.mem_flatMap, List.mem_range] at h
    obtain ⟨s, hs, k, hk, h⟩ := h
    rw [getD_lt hs] at hk
    have hd : (List.range' ((1 + N.sum) * stride dr.modules.length) N.length).getD s 0 =
        (1 + N.sum) * stride dr.modules.length + s := by
      rw [getD_lt (by simpa using hs)]; simp
    rw [hd] at h
    refine ⟨s, hs, (N.take s).sum + 1 + k, (mem_segmentSamples hs).mpr ⟨k, hk, rfl⟩, ?_⟩
    have hle := sum_take_le N (s + 1)
    rw [List.sum_take_succ _ _ hs] at hle
    rw [show (N.take s).sum + 1 + k - 1 = (N.take s).sum + k by omega]
    have e1 : ∀ j < 10, Slot dr.modules.length ((N.take s).sum + k) (((N.take s).sum + k) * stride dr.modules.length + j) :=
      fun j hj => slot_const (by omega)
    have e2 : ∀ j < 10, Slot dr.modules.length ((N.take s).sum + 1 + k)
      (((N.take s).sum + 1 + k) * stride dr.modules.length + j) := fun j hj => slot_const (by omega)
    have p1 : (N.take s).sum + k < 1 + N.sum := by omega
    have p2 : (N.take s).sum + 1 + k < 1 + N.sum := by omega
    generalize (N.take s).sum + k = n1 at *
    generalize (N.take s).sum + 1 + k = n2 at *
    have f1 := e1 0 (by omega)
    have f2 := e2 0 (by omega)
    rw [Nat.add_zero] at f1 f2
    simp only [kinCons, Translation2.eqCons, Rotation2.eqCons, Translation2.add, Translation2.smul,
      Rotation2.sub, Rotation2.add, Rotation2.neg, Rotation2.rotateBy, Rotation2.ofAngle, sampleVars, if_true, List.cons_append,
      List.nil_append, List.mem_cons, List.not_mem_nil, or_false] at h
    rcases h with rfl | rfl | rfl | rfl | rfl | rfl | rfl | rfl <;>
    simp only [within_eq, within_add, within_sub, within_mul, within_neg, within_sin, within_cos, within_var, within_lit,
      f1, f2, e1 1 (by omega), e1 2 (by omega), e1 3 (by omega), e1 4 (by omega), e1 5 (by omega), e1 6 (by omega),
      e2 1 (by omega), e2 2 (by omega), e2 3 (by omega), e2 4 (by omega), e2 5 (by omega), e2 6 (by omega),
      e2 7 (by omega), e2 8 (by omega), e2 9 (by omega), hs, p1, p2, and_self, true_or, or_true]
  · right; left
    simp only [List.mem_flatMap, List.mem_range] at h
    obtain ⟨n, hn, h⟩ := h
    exact one n hn (within_dyn dr n c h)
  · right; left
    simp only [wptList, List.mem_flatMap, List.mem_range] at h
    obtain ⟨w, hw, c', hc', h⟩ := h
    refine one _ ?_ (within_apply _ _ c' c h)
    have := sum_take_le N w
    omega
  · right; left
    simp only [sgmtList, List.mem_flatMap, List.mem_range] at h
    obtain ⟨s, hs, c', hc', n, hn, h⟩ := h
    rw [List.mem_range'_1, getD_lt hs] at hn
    refine one _ ?_ (within_apply _ _ c' c h)
    have := sum_take_le N (s + 1)
    rw [List.sum_take_succ _ _ hs] at this
    omega

theorem slot_unique {m n n' i : ℕ} (h : Slot m n i) (h' : Slot m n' i) : n = n' := by
  have hs : 0 < stride m := by simp [stride]
  have e : ∀ {n}, Slot m n i → i / stride m = n := by
    rintro n ⟨h1, h2⟩
    exact Nat.div_eq_of_lt_le h1 (by rw [Nat.succ_mul]; exact h2)
  rw [← e h, ← e h']

/-- C111: every decision variable belongs to exactly one sample or to exactly one segment, and no constraint
or cost refers to any other. -/
theorem C111_owner (b : Builder D) (hb : Reachable b) (dr : SwerveDrivetrain D) (hr : Ready b dr) (handle : ℤ)
    (g : Generator D) (hg : Generator.construct b handle = .ok g) (i : ℕ) :
    (i < g.problem.nvars ↔ (∃ n, OfSample g.vars n i) ∨ ∃ s, OfSegment g.vars s i) ∧
    (∀ n n', OfSample g.vars n i → OfSample g.vars n' i → n = n') ∧
    (∀ s s', OfSegment g.vars s i → OfSegment g.vars s' i → s = s') ∧
    ∀ n s, OfSample g.vars n i → ¬ OfSegment g.vars s i := by
  obtain ⟨hv, hn, -, -⟩ := closed_parts hb hr hg
  simp only [hv, hn, ofSample_iff, ofSegment_iff]
  generalize (table b).counts = N
  have hs : 0 < stride dr.modules.length := by simp [stride]
  have hlt : ∀ n < 1 + N.sum, Slot dr.modules.length n i → i < (1 + N.sum) * stride dr.modules.length := by
    rintro n hn ⟨-, h⟩
    have : (n + 1) * stride dr.modules.length ≤ (1 + N.sum) * stride dr.modules.length :=
      Nat.mul_le_mul_right _ (by omega)
    rw [Nat.succ_mul] at this
    omega
  refine ⟨⟨fun h => ?_, ?_⟩, fun n n' h h' => slot_unique h.2 h'.2, fun s s' h h' => by omega, ?_⟩
  · by_cases hi : i < (1 + N.sum) * stride dr.modules.length
    · refine .inl ⟨i / stride dr.modules.length, Nat.div_lt_of_lt_mul (by rwa [mul_comm]), Nat.div_mul_le_self _ _, ?_⟩
      have := Nat.lt_div_mul_add (a := i) hs
      exact this
    · exact .inr ⟨i - (1 + N.sum) * stride dr.modules.length, by omega, by omega⟩
  · rintro (⟨n, h1, h2⟩ | ⟨s, h1, h2⟩)
    · have := hlt n h1 h2
      omega
    · omega
  · rintro n s ⟨h1, h2⟩ ⟨h3, h4⟩
    have := hlt n h1 h2
    omega

/-- C111: constraints refer to existing variables. -/
theorem C111_scope (b : Builder D) (hb : Reachable b) (dr : SwerveDrivetrain D) (hr : Ready b dr) (handle : ℤ)
    (g : Generator D) (hg : Generator.construct b handle = .ok g) :
    ∀ c ∈ g.problem.cons, ∀ i, Involves c i → i < g.problem.nvars := by
  intro c hc i hi
  rw [(C111_owner b hb dr hr handle g hg i).1]
  rcases C111_local b hb dr hr handle g hg c hc with ⟨s, -, h⟩ | ⟨n, -, h⟩ | ⟨s, -, n, -, h⟩
  · exact .inr ⟨s, h i hi⟩
  · exact .inl ⟨n, h i hi⟩
  · rcases h i hi with h | h | h
    · exact .inl ⟨_, h⟩
    · exact .inl ⟨_, h⟩
    · exact .inr ⟨s, h⟩

theorem mentions_time (i : ℕ) (l : List (ℕ × ℕ)) : ∀ e : Expr D,
    Mentions i (totalTimeExpr l e) ↔ Mentions i e ∨ ∃ x ∈ l, x.1 = i := by
  induction l with
  | nil => simp [totalTimeExpr]
  | cons x l ih =>
    intro e
    have := ih (e + .var x.1 * .const (Dbl.ofInt (toInt32 x.2)))
    rw [totalTimeExpr, List.foldl_cons, ← totalTimeExpr, this]
    change ((Mentions i e ∨ (x.1 = i ∨ False)) ∨ _) ↔ _
    simp [or_assoc]

/-- C111: the cost involves exactly the time steps. -/
theorem C111_cost (b : Builder D) (hb : Reachable b) (dr : SwerveDrivetrain D) (hr : Ready b dr) (handle : ℤ)
    (g : Generator D) (hg : Generator.construct b handle = .ok g) :
    ∃ e, g.problem.cost = some e ∧ ∀ i, Mentions i e ↔ ∃ s, OfSegment g.vars s i := by
  obtain ⟨hv, -, -, hc⟩ := closed_parts hb hr hg
  refine ⟨_, hc, fun i => ?_⟩
  rw [hv, mentions_time]
  simp only [ofSegment_iff]
  generalize (table b).counts = N
  generalize (1 + N.sum) * stride dr.modules.length = a
  change (False ∨ _) ↔ _
  rw [false_or]
  constructor
  · rintro ⟨x, hx, rfl⟩
    have := (List.of_mem_zip hx).1
    rw [List.mem_range'_1] at this
    exact ⟨x.1 - a, by omega, by omega⟩
  · rintro ⟨s, hs, rfl⟩
    refine ⟨((List.range' a N.length).zip N)[s]'(by simpa using hs), List.getElem_mem _, by simp⟩

theorem mentions_accumulate (i : ℕ) (l : List ℕ) (h : i ∈ l) : Mentions i (accumulate l : Expr D) := by
  suffices H : ∀ (e : Expr D), Mentions i e ∨ i ∈ l → Mentions i (l.foldl (fun acc f => acc + .var f) e) from
    H _ (.inr h)
  clear h
  induction l with
  | nil => exact fun e h => h.elim id (by simp)
  | cons j l ih =>
    intro e h
    refine ih _ ?_
    rcases h with h | h
    · exact .inl (.inl h)
    · rcases List.mem_cons.mp h with rfl | h
      · exact .inl (.inr rfl)
      · exact .inr h

section Rules
variable (i : ℕ) (a b : Expr D)

omit [Dbl D] in
theorem mentions_var (j : ℕ) : Mentions i (.var j : Expr D) ↔ j = i := Iff.rfl
omit [Dbl D] in
theorem involves_eq : Involves (.eq a b) i ↔ Mentions i a ∨ Mentions i b := Iff.rfl
theorem mentions_add : Mentions i (a + b) ↔ Mentions i a ∨ Mentions i b := Iff.rfl
theorem mentions_sub : Mentions i (a - b) ↔ Mentions i a ∨ Mentions i b := Iff.rfl
theorem mentions_mul : Mentions i (a * b) ↔ Mentions i a ∨ Mentions i b := Iff.rfl
theorem mentions_neg : Mentions i (-a) ↔ Mentions i a := Iff.rfl

end Rules

theorem kin_involves (m p q : ℕ) (dt : Expr D) {k : ℕ} (hk : k < 7) :
    (∃ c ∈ kinCons (sampleVars m p) (sampleVars m q) dt, Involves c (p * stride m + k)) ∧
    ∃ c ∈ kinCons (sampleVars m p) (sampleVars m q) dt, Involves c (q * stride m + k) := by
  simp only [kinCons, Translation2.eqCons, Rotation2.eqCons, Translation2.add, Translation2.smul,
    Rotation2.sub, Rotation2.add, Rotation2.neg, Rotation2.rotateBy, sampleVars, if_true, List.cons_append,
    List.nil_append, List.exists_mem_cons_iff, involves_eq, mentions_add, mentions_sub, mentions_mul, mentions_neg, mentions_var]
  interval_cases k <;> simp

/-- C111: if there is a control interval, every variable is involved in some constraint. -/
theorem C111_used (b : Builder D) (hb : Reachable b) (dr : SwerveDrivetrain D) (hr : Ready b dr) (handle : ℤ)
    (g : Generator D) (hg : Generator.construct b handle = .ok g) (hN : 0 < (table b).counts.sum) :
    ∀ i < g.problem.nvars, ∃ c ∈ g.problem.cons, Involves c i := by
  intro i hi
  obtain ⟨hv, -, hcs, -⟩ := closed_parts hb hr hg
  rw [(C111_owner b hb dr hr handle g hg i).1, hv] at hi
  simp only [ofSample_iff, ofSegment_iff] at hi
  rw [hcs]
  generalize (table b).counts = N at *
  have mem : ∀ c : Con D, (c ∈ kinList dr.modules.length N (List.range' ((1 + N.sum) * stride dr.modules.length) N.length) ∨
      c ∈ (List.range (1 + N.sum)).flatMap (dynCons dr) ∨ c ∈ ((List.range' ((1 + N.sum) * stride dr.modules.length)
        N.length).zip N).map (fun x => (.ge (.var x.1) (Num.lit 0) : Con D))) → c ∈ allCons b.path dr N := by
    intro c h
    simp only [allCons, List.mem_append]
    tauto
  rcases hi with ⟨n, hn, h1, h2⟩ | ⟨s, hs, rfl⟩
  · obtain ⟨k, rfl⟩ := Nat.exists_eq_add_of_le h1
    have hk : k < 10 + 2 * dr.modules.length := by
      rw [show stride dr.modules.length = 10 + 2 * dr.modules.length from rfl] at h2
      omega
    have dyn : ∀ c ∈ dynCons dr n, c ∈ allCons b.path dr N := fun c hc =>
      mem c (.inr (.inl (List.mem_flatMap.mpr ⟨n, List.mem_range.mpr hn, hc⟩)))
    have hx : _ ∈ dynCons dr n := List.mem_append_right _ (List.mem_cons_self ..)
    have hy : _ ∈ dynCons dr n :=
      List.mem_append_right _ (List.mem_cons_of_mem _ (List.mem_cons_self ..))
    have hz : _ ∈ dynCons dr n :=
      List.mem_append_right _ (List.mem_cons_of_mem _ (List.mem_cons_of_mem _ (List.mem_cons_self ..)))
    have kin : ∀ q, 1 ≤ q → q ≤ N.sum → ∃ dt, ∀ c ∈ kinCons (sampleVars dr.modules.length (q - 1))
        (sampleVars dr.modules.length q) (.var dt), c ∈ allCons b.path dr N := by
      intro q h1 h2
      rcases sample_between N 0 N.length q (Nat.zero_le _) (by
        simpa [waypointSample] using h2) with e | ⟨s, -, -, hs, hn⟩
      · have : waypointSample N 0 = 0 := rfl
        omega
      · obtain ⟨k, hk, rfl⟩ := (mem_segmentSamples hs).mp hn
        refine ⟨(List.range' ((1 + N.sum) * stride dr.modules.length) N.length).getD s 0,
          fun c hc => mem c (.inl ?_)⟩
        rw [kinList]
        simp only [List.mem_flatMap, List.mem_range]
        refine ⟨s, hs, k, by rwa [getD_lt hs], ?_⟩
        rw [show (N.take s).sum + 1 + k - 1 = (N.take s).sum + k by omega] at hc
        exact hc
    by_cases hk7 : k < 7
    · rcases Nat.eq_zero_or_pos n with rfl | hpos
      · obtain ⟨dt, h⟩ := kin 1 le_rfl hN
        obtain ⟨c, hc, hi⟩ := (kin_involves (D := D) dr.modules.length 0 1 (.var dt) hk7).1
        exact ⟨c, h c hc, hi⟩
      · obtain ⟨dt, h⟩ := kin n hpos (by omega)
        obtain ⟨c, hc, hi⟩ := (kin_involves (D := D) dr.modules.length (n - 1) n (.var dt) hk7).2
        exact ⟨c, h c hc, hi⟩
    · by_cases hk10 : k < 10
      · obtain rfl | rfl | rfl : k = 7 ∨ k = 8 ∨ k = 9 := by omega
        · exact ⟨_, dyn _ hx, (involves_eq _ _ _).mpr (.inr ((mentions_mul _ _ _).mpr (.inr rfl)))⟩
        · exact ⟨_, dyn _ hy, (involves_eq _ _ _).mpr (.inr ((mentions_mul _ _ _).mpr (.inr rfl)))⟩
        · exact ⟨_, dyn _ hz, (involves_eq _ _ _).mpr (.inr ((mentions_mul _ _ _).mpr (.inr rfl)))⟩
      · rcases Nat.even_or_odd' (k - 10) with ⟨j, hj | hj⟩
        · refine ⟨_, dyn _ hx, (involves_eq _ _ _).mpr (.inl (mentions_accumulate _ _ ?_))⟩
          rw [List.mem_map]
          exact ⟨j, List.mem_range.mpr (by omega), by omega⟩
        · refine ⟨_, dyn _ hy, (involves_eq _ _ _).mpr (.inl (mentions_accumulate _ _ ?_))⟩
          rw [List.mem_map]
          exact ⟨j, List.mem_range.mpr (by omega), by omega⟩
  · refine ⟨_, mem _ (.inr (.inr (List.mem_map.mpr ⟨((List.range' ((1 + N.sum) * stride dr.modules.length)
      N.length).zip N)[s]'(by simpa using hs), List.getElem_mem _, rfl⟩))), .inl ?_⟩
    simp [Mentions]

theorem agree_expr {σ τ : ℕ → ℝ} (e : Expr ℝ) (h : ∀ i, Mentions i e → σ i = τ i) :
    e.eval σ = e.eval τ ∧ (e.Defined σ ↔ e.Defined τ) := by
  induction e with
  | const d => exact ⟨rfl, Iff.rfl⟩
  | var j => exact ⟨h j rfl, Iff.rfl⟩
  | add a b iha ihb | sub a b iha ihb | mul a b iha ihb | div a b iha ihb | atan2 a b iha ihb
  | hypot a b iha ihb =>
    obtain ⟨h1, h2⟩ := iha fun i hi => h i (.inl hi)
    obtain ⟨h3, h4⟩ := ihb fun i hi => h i (.inr hi)
    simp [Expr.eval, Expr.Defined, h1, h2, h3, h4]
  | neg a iha | sin a iha | cos a iha | sign a iha =>
    obtain ⟨h1, h2⟩ := iha fun i hi => h i hi
    simp [Expr.eval, Expr.Defined, h1, h2]

/-- C111: whether an assignment satisfies a constraint depends only on the variables involved. -/
theorem C111_depends (c : Con ℝ) (σ τ : ℕ → ℝ) (h : ∀ i, Involves c i → σ i = τ i) :
    c.Holds σ ↔ c.Holds τ := by
  cases c with
  | eq a b | le a b | ge a b =>
    obtain ⟨h1, h2⟩ := agree_expr a fun i hi => h i (.inl hi)
    obtain ⟨h3, h4⟩ := agree_expr b fun i hi => h i (.inr hi)
    simp [Con.Holds, h1, h2, h3, h4]
  | leInf a =>
    obtain ⟨h1, h2⟩ := agree_expr a fun i hi => h i hi
    simp [Con.Holds, h2]

/-- A path of three control intervals. -/
example : ∃ g, Generator.construct (run true openOps Builder.new) 0 = .ok g ∧ 0 < g.problem.nvars ∧
    ∀ i < g.problem.nvars, ∃ c ∈ g.problem.cons, Involves c i := by
  obtain ⟨hr, hc, -⟩ := open_table
  obtain ⟨g, hg, -⟩ := C29_problem _ ⟨true, _, rfl⟩ demoRobot hr demo_radius 0
  refine ⟨g, hg, ?_, C111_used _ ⟨true, _, rfl⟩ demoRobot hr 0 g hg (by rw [hc]; decide)⟩
  rw [(closed_parts ⟨true, _, rfl⟩ hr hg).2.1, hc]
  simp [stride]

end Trajopt.Props
