import Verif.Spec.Size
import Verif.Props.Locality

/-!
# C112: the size of the problem
-/

set_option autoImplicit false

namespace Trajopt.Props

open Spec Builder

variable {D : Type} [Dbl D]

theorem apply_equations (c : Constraint D) (s : SampleVars D) :
    (c.apply s).countP IsEquation = equations c ∧ (c.apply s).countP (!IsEquation ·) = inequalities c := by
  cases c <;> first
    | exact ⟨rfl, rfl⟩
    | (simp only [Constraint.apply, equations, inequalities]
       split <;> exact ⟨rfl, rfl⟩)

theorem power_equations (m n : ℕ) (mods : List (SwerveModule D)) (i : ℕ) :
    (powerList m n mods i).countP IsEquation = 0 ∧
    (powerList m n mods i).countP (!IsEquation ·) = 2 * mods.length := by
  induction mods generalizing i with
  | nil => simp [powerList]
  | cons md rest ih =>
    obtain ⟨h1, h2⟩ := ih (i + 1)
    rw [powerList, List.countP_append, List.countP_append, h1, h2]
    constructor
    · simp [powerCons, IsEquation]
    · simp [powerCons, IsEquation]; ring

theorem dyn_equations (dr : SwerveDrivetrain D) (n : ℕ) :
    (dynCons dr n).countP IsEquation = 3 ∧ (dynCons dr n).countP (!IsEquation ·) = 2 * dr.modules.length := by
  obtain ⟨h1, h2⟩ := power_equations dr.modules.length n dr.modules 0
  rw [dynCons, List.countP_append, List.countP_append, h1, h2]
  exact ⟨rfl, rfl⟩

theorem kin_equations (p q : SampleVars D) (dt : Expr D) :
    (kinCons p q dt).countP IsEquation = 8 ∧ (kinCons p q dt).countP (!IsEquation ·) = 0 := by
  exact ⟨rfl, rfl⟩

omit [Dbl D] in
theorem countP_flatMap_const {α : Type} (p : Con D → Bool) (l : List α) (f : α → List (Con D)) (k : ℕ)
    (h : ∀ a ∈ l, (f a).countP p = k) : (l.flatMap f).countP p = l.length * k := by
  induction l with
  | nil => simp
  | cons a l ih =>
    rw [List.flatMap_cons, List.countP_append, h a (by simp), ih fun a ha => h a (by simp [ha])]
    simp; ring

omit [Dbl D] in
theorem countP_flatMap_range (p : Con D → Bool) (n : ℕ) (f : ℕ → List (Con D)) :
    ((List.range n).flatMap f).countP p = ∑ k ∈ Finset.range n, (f k).countP p := by
  induction n with
  | zero => simp
  | succ n ih => rw [List.range_succ, List.flatMap_append, List.countP_append, ih, Finset.sum_range_succ]; simp

theorem countP_apply (p : Con D → Bool) (rows : Constraint D → ℕ) (s : SampleVars D)
    (h : ∀ c : Constraint D, ∀ s, (c.apply s).countP p = rows c) (l : List (Constraint D)) :
    (l.flatMap fun c => c.apply s).countP p = (l.map rows).sum := by
  induction l with
  | nil => simp
  | cons c l ih => rw [List.flatMap_cons, List.countP_append, h, ih]; simp

theorem countP_sgmt (p : Con D → Bool) (rows : Constraint D → ℕ) (m : ℕ) (ns : List ℕ)
    (h : ∀ c : Constraint D, ∀ s, (c.apply s).countP p = rows c) (l : List (Constraint D)) :
    (l.flatMap fun c => ns.flatMap fun n => c.apply (sampleVars m n)).countP p = ns.length * (l.map rows).sum := by
  induction l with
  | nil => simp
  | cons c l ih =>
    rw [List.flatMap_cons, List.countP_append, ih, countP_flatMap_const p ns _ (rows c) fun a _ => h c _]
    simp; ring

theorem count_all (b : Builder D) (dr : SwerveDrivetrain D) (p : Con D → Bool) (rows : Constraint D → ℕ)
    (h : ∀ c : Constraint D, ∀ s, (c.apply s).countP p = rows c) :
    let N := (table b).counts
    (allCons b.path dr N).countP p =
      ((List.range' ((1 + N.sum) * stride dr.modules.length) N.length).flatMap fun dt =>
        dr.modules.map (stepCap (minWidth dr.modules) dt)).countP p +
      (((List.range' ((1 + N.sum) * stride dr.modules.length) N.length).zip N).map
        (fun x => (.ge (.var x.1) (Num.lit 0) : Con D))).countP p +
      (kinList dr.modules.length N (List.range' ((1 + N.sum) * stride dr.modules.length) N.length) :
        List (Con D)).countP p +
      ((List.range (1 + N.sum)).flatMap (dynCons dr)).countP p + imposed rows (table b) := by
  intro N
  have e1 : (wptList dr.modules.length b.path N).countP p =
      ∑ w ∈ Finset.range (1 + N.length), (((table b).instant w).map rows).sum := by
    rw [wptList, countP_flatMap_range]
    exact Finset.sum_congr rfl fun w _ => countP_apply p rows _ h _
  have e2 : (sgmtList dr.modules.length b.path N).countP p =
      ∑ s ∈ Finset.range N.length, N.getD s 0 * (((table b).continuous s).map rows).sum := by
    rw [sgmtList, countP_flatMap_range]
    refine Finset.sum_congr rfl fun s _ => ?_
    rw [countP_sgmt p rows _ _ h, List.length_range']
    rfl
  simp only [allCons, List.countP_append, e1, e2, imposed]
  ring

theorem count_kin (p : Con D → Bool) (k m : ℕ) (N dts : List ℕ)
    (h : ∀ a b dt, (kinCons a b dt : List (Con D)).countP p = k) :
    (kinList m N dts : List (Con D)).countP p = k * N.sum := by
  rw [kinList, countP_flatMap_range]
  simp only [countP_flatMap_range, h, Finset.sum_const, Finset.card_range, smul_eq_mul]
  rw [← Finset.sum_mul, mul_comm]
  congr 1
  clear h
  induction N with
  | nil => simp
  | cons a N ih => rw [List.length_cons, Finset.sum_range_succ']; simpa [add_comm] using ih

theorem cap_equations (w : Option D) (dt : ℕ) (m : SwerveModule D) : IsEquation (stepCap w dt m) = false := by
  cases w <;> rfl

/-- C112: how many decision variables the problem has. -/
theorem C112_variables (b : Builder D) (hb : Reachable b) (dr : SwerveDrivetrain D) (hr : Ready b dr) (handle : ℤ)
    (g : Generator D) (hg : Generator.construct b handle = .ok g) :
    g.problem.nvars = sampleCount (table b).counts * (10 + 2 * dr.modules.length) + (table b).counts.length :=
  (closed_parts hb hr hg).2.1

/-- C112: how many equations it has: eight for every control interval, three for every sample, and those of the
path's constraints. -/
theorem C112_equations (b : Builder D) (hb : Reachable b) (dr : SwerveDrivetrain D) (hr : Ready b dr) (handle : ℤ)
    (g : Generator D) (hg : Generator.construct b handle = .ok g) :
    g.problem.cons.countP IsEquation =
      8 * (table b).counts.sum + 3 * sampleCount (table b).counts + imposed equations (table b) := by
  rw [(closed_parts hb hr hg).2.2.1, count_all b dr _ equations fun c s => (apply_equations c s).1,
    count_kin _ 8 _ _ _ fun a b dt => (kin_equations a b dt).1,
    countP_flatMap_const _ _ _ 3 fun n _ => (dyn_equations dr n).1,
    countP_flatMap_const _ _ _ 0 fun n _ => by
      rw [List.countP_map, List.countP_eq_zero]; intro m _; simp [cap_equations]]
  have : (((List.range' ((1 + (table b).counts.sum) * stride dr.modules.length) (table b).counts.length).zip
      (table b).counts).map (fun x => (.ge (.var x.1) (Num.lit 0) : Con D))).countP IsEquation = 0 := by
    rw [List.countP_map, List.countP_eq_zero]; intro m _; simp [IsEquation]
  rw [this, List.length_range, sampleCount]
  ring

/-- C112: how many inequalities: for every segment one and one for every module, for every sample two for every
module, and those of the path's constraints. -/
theorem C112_inequalities (b : Builder D) (hb : Reachable b) (dr : SwerveDrivetrain D) (hr : Ready b dr)
    (handle : ℤ) (g : Generator D) (hg : Generator.construct b handle = .ok g) :
    g.problem.cons.countP (!IsEquation ·) =
      (table b).counts.length * (1 + dr.modules.length) +
      sampleCount (table b).counts * (2 * dr.modules.length) + imposed inequalities (table b) := by
  rw [(closed_parts hb hr hg).2.2.1, count_all b dr _ inequalities fun c s => (apply_equations c s).2,
    count_kin _ 0 _ _ _ fun a b dt => (kin_equations a b dt).2,
    countP_flatMap_const _ _ _ (2 * dr.modules.length) fun n _ => (dyn_equations dr n).2,
    countP_flatMap_const _ _ _ dr.modules.length fun n _ => by
      rw [List.countP_map, List.countP_eq_length.mpr]; intro m _; simp [cap_equations]]
  have : (((List.range' ((1 + (table b).counts.sum) * stride dr.modules.length) (table b).counts.length).zip
      (table b).counts).map (fun x => (.ge (.var x.1) (Num.lit 0) : Con D))).countP (!IsEquation ·) =
      (table b).counts.length := by
    rw [List.countP_map, List.countP_eq_length.mpr]
    · simp
    · intro m _; simp [IsEquation]
  rw [this, List.length_range, List.length_range', sampleCount]
  ring

/-- C112: how many more unknowns than equations. -/
theorem C112_freedom (b : Builder D) (hb : Reachable b) (dr : SwerveDrivetrain D) (hr : Ready b dr) (handle : ℤ)
    (g : Generator D) (hg : Generator.construct b handle = .ok g) :
    (g.problem.nvars : ℤ) - g.problem.cons.countP IsEquation =
      sampleCount (table b).counts * (2 * dr.modules.length - 1) + 8 + (table b).counts.length -
        imposed equations (table b) := by
  rw [C112_variables b hb dr hr handle g hg, C112_equations b hb dr hr handle g hg]
  push_cast [sampleCount]
  ring

/-- Calling `WptConstraint` again with the same arguments. -/
theorem repeat_once (b : Builder ℝ) (hb : Reachable b) (dr : SwerveDrivetrain ℝ) (hr : Ready b dr) (w : ℕ)
    (hw : w ≤ (table b).counts.length) (c : Constraint ℝ) (hc : c ∈ (table b).instant w) :
    ∃ b', Reachable b' ∧ Ready b' dr ∧ (table b').counts = (table b).counts ∧ c ∈ (table b').instant w ∧
      imposed equations (table b') = imposed equations (table b) + equations c ∧
      ∀ T, Solves b' dr T ↔ Solves b dr T := by
  have hwp : w < (table b).waypoints := lt_of_le_of_lt hw hr.counts
  have hlen : (table b).waypoints ≤ 2 ^ 63 := (wf_reachable hb).len
  have hlt : w < 2 ^ 63 := by omega
  obtain ⟨b', e, t⟩ := C11_wpt_constraint b hb w hlt c
  have hs := fun T => (C40_wpt b hb w hlt hwp c dr T).2 hc
  rw [e] at hs
  have hmax : max (table b).waypoints (w + 1) = (table b).waypoints := by omega
  have hN : (table b').counts = (table b).counts := by
    rw [t]
    simp only [PathTable.requireAt, PathTable.reach, hmax]
    simp [show (table b).waypoints - max (table b).waypoints 1 = 0 by omega]
  have hw' : (table b').waypoints = (table b).waypoints := by
    rw [t]; simp only [PathTable.requireAt, PathTable.reach, hmax]
  have hins : ∀ v, (table b').instant v =
      if v = w then (table b).instant v ++ [c] else (table b).instant v := by
    intro v; rw [t]; rfl
  have hcon : ∀ s, (table b').continuous s = (table b).continuous s := by
    intro s; rw [t]; rfl
  refine ⟨b', ?_, ⟨?_, ?_, ?_⟩, hN, ?_, ?_, hs⟩
  · obtain ⟨asserts, ops, h⟩ := hb
    exact ⟨asserts, _, run_snoc h (op := .wptConstraint w c) e⟩
  · rw [t]; exact hr.drivetrain
  · rw [hN, hw']; exact hr.counts
  · rw [hN]; exact hr.size
  · rw [hins]; simp
  · have : ∀ v, (((table b').instant v).map equations).sum =
        (((table b).instant v).map equations).sum + if v = w then equations c else 0 := by
      intro v
      rw [hins]
      split <;> simp
    simp only [imposed, hN, hcon, this, Finset.sum_add_distrib, Finset.sum_ite_eq', Finset.mem_range]
    rw [if_pos (by omega)]
    ring

/-- C112: nothing keeps the equations fewer than the unknowns: repeating a call that is already in effect leads to
a problem with the same solutions and more equations than unknowns. -/
theorem C112_overdetermined (b : Builder ℝ) (hb : Reachable b) (dr : SwerveDrivetrain ℝ) (hr : Ready b dr) (w : ℕ)
    (hw : w ≤ (table b).counts.length) (c : Constraint ℝ) (hc : c ∈ (table b).instant w) (he : 0 < equations c) :
    ∃ b', Reachable b' ∧ Ready b' dr ∧ (∀ T, Solves b' dr T ↔ Solves b dr T) ∧
      ∀ handle g, Generator.construct b' handle = .ok g →
        g.problem.nvars < g.problem.cons.countP IsEquation := by
  have step : ∀ k, ∃ b', Reachable b' ∧ Ready b' dr ∧ (table b').counts = (table b).counts ∧
      c ∈ (table b').instant w ∧ k ≤ imposed equations (table b') ∧ ∀ T, Solves b' dr T ↔ Solves b dr T := by
    intro k
    induction k with
    | zero => exact ⟨b, hb, hr, rfl, hc, Nat.zero_le _, fun _ => Iff.rfl⟩
    | succ k ih =>
      obtain ⟨b1, h1, h2, h3, h4, h5, h6⟩ := ih
      obtain ⟨b2, g1, g2, g3, g4, g5, g6⟩ := repeat_once b1 h1 dr h2 w (by rw [h3]; exact hw) c h4
      exact ⟨b2, g1, g2, g3.trans h3, g4, by omega, fun T => (g6 T).trans (h6 T)⟩
  obtain ⟨b', h1, h2, h3, -, h5, h6⟩ := step (sampleCount (table b).counts * (10 + 2 * dr.modules.length) +
    (table b).counts.length + 1)
  refine ⟨b', h1, h2, h6, fun handle g hg => ?_⟩
  rw [C112_variables b' h1 dr h2 handle g hg, C112_equations b' h1 dr h2 handle g hg, h3]
  omega

/-- A path of three control intervals for a robot with four modules, which starts at a pose and at rest: 74
unknowns, 42 equations. -/
example : ∃ g, Generator.construct (run true openOps Builder.new) 0 = .ok g ∧
    g.problem.nvars = 74 ∧ g.problem.cons.countP IsEquation = 42 := by
  obtain ⟨hr, hc, hco, hi0, hi1, hi2⟩ := open_table
  obtain ⟨g, hg, -⟩ := C29_problem _ ⟨true, _, rfl⟩ demoRobot hr demo_radius 0
  refine ⟨g, hg, ?_, ?_⟩
  · rw [C112_variables _ ⟨true, _, rfl⟩ demoRobot hr 0 g hg, hc]
    simp [sampleCount, demoRobot]
  · rw [C112_equations _ ⟨true, _, rfl⟩ demoRobot hr 0 g hg, imposed, hc]
    simp [sampleCount, Finset.sum_range_succ, hi0, hi1, hi2, hco 0, hco 1, equations, Dbl.eq]

/-- Its start can be demanded until there are more equations than unknowns. -/
example : ∃ b', Reachable b' ∧ Ready b' demoRobot ∧
    ∀ handle g, Generator.construct b' handle = .ok g → g.problem.nvars < g.problem.cons.countP IsEquation := by
  obtain ⟨hr, hc, -, hi0, -⟩ := open_table
  obtain ⟨b', h1, h2, -, h4⟩ := C112_overdetermined _ ⟨true, _, rfl⟩ demoRobot hr 0 (Nat.zero_le _)
    (.poseEquality 0 0 0) (by rw [hi0]; simp) (by simp [equations])
  exact ⟨b', h1, h2, h4⟩

end Trajopt.Props
