import Verif.Model.Examples
import Verif.Props.Drivable
import Verif.Props.History
import Verif.Props.FFI
import Verif.Props.Tolerance
import Mathlib.Analysis.SpecialFunctions.ExpDeriv

/-!
# C82 The programs that come with the library
-/

set_option autoImplicit false

namespace Trajopt.Props

open Spec Builder

/-- The robot of the examples, in plain numbers. -/
noncomputable def shippedRobot : SwerveDrivetrain ℝ where
  mass := 45
  moi := 6
  modules := [⟨⟨0.6, 0.6⟩, 0.04, 70, 2⟩, ⟨⟨0.6, -0.6⟩, 0.04, 70, 2⟩, ⟨⟨-0.6, 0.6⟩, 0.04, 70, 2⟩,
    ⟨⟨-0.6, -0.6⟩, 0.04, 70, 2⟩]

theorem examples_robot : (Examples.robot : SwerveDrivetrain ℝ) = shippedRobot := by
  simp only [Examples.robot, Examples.wheel, shippedRobot, real_lit]
  norm_num

theorem shipped_radius : ∀ m ∈ shippedRobot.modules, m.wheelRadius ≠ 0 := by
  intro m hm
  simp only [shippedRobot, List.mem_cons, List.not_mem_nil, or_false] at hm
  rcases hm with rfl | rfl | rfl | rfl <;> norm_num

theorem shipped_apart : ∃ m₁ ∈ shippedRobot.modules, ∃ m₂ ∈ shippedRobot.modules,
    m₁.translation ≠ m₂.translation := by
  refine ⟨⟨⟨0.6, 0.6⟩, 0.04, 70, 2⟩, by simp [shippedRobot], ⟨⟨0.6, -0.6⟩, 0.04, 70, 2⟩,
    by simp [shippedRobot], ?_⟩
  intro h
  have := congrArg Translation2.y h
  norm_num at this

/-- It manages one metre per second and one metre per second squared. -/
theorem shipped_manages : Manages shippedRobot 1 := by
  intro s hu hv ho ha hal
  have hr : ∀ m ∈ shippedRobot.modules, ‖vec m.translation‖ ≤ 1 := by
    intro m hm
    have h2 : ‖vec m.translation‖ ^ 2 ≤ 1 ^ 2 := by
      rw [← Complex.normSq_eq_norm_sq, Complex.normSq_apply]
      simp only [shippedRobot, List.mem_cons, List.not_mem_nil, or_false] at hm
      rcases hm with rfl | rfl | rfl | rfl <;> simp [vec] <;> norm_num
    exact le_of_sq_le_sq h2 (by norm_num)
  have hhh : s.heading * (starRingEnd ℂ) s.heading = 1 := by
    rw [Complex.mul_conj, Complex.normSq_eq_norm_sq, hu]; simp
  refine ⟨fun j => (45 / 4 : ℝ) * s.acc + (25 / 12 * s.alpha : ℝ) * Complex.I *
    (vec (shippedRobot.modules.getD j ⟨⟨0, 0⟩, 0, 0, 0⟩).translation * s.heading), ?_, ?_, ?_, ?_⟩
  · change ∑ j : Fin 4, _ = _
    rw [Fin.sum_univ_four]
    simp only [shippedRobot, List.getD_cons_zero, List.getD_cons_succ, Fin.val_zero, Fin.val_one,
      Fin.val_two, vec]
    apply Complex.ext <;> simp <;> ring
  · change ∑ j : Fin 4, _ = _
    rw [Fin.sum_univ_four]
    have h1 := congrArg Complex.re hhh
    simp only [Complex.mul_re, Complex.conj_re, Complex.conj_im, Complex.one_re] at h1
    simp [shippedRobot, vec, torque, lever]
    linear_combination 6 * s.alpha * h1
  · intro m hm
    have : maxSpeed m = 2.8 := by
      simp only [shippedRobot, List.mem_cons, List.not_mem_nil, or_false] at hm
      rcases hm with rfl | rfl | rfl | rfl <;> simp [maxSpeed] <;> norm_num
    rw [this]
    unfold wheelVelocity
    refine (norm_add_le _ _).trans ?_
    rw [norm_mul, norm_mul, norm_mul, Complex.norm_conj, hu, Complex.norm_I, Complex.norm_real,
      Real.norm_eq_abs, one_mul, one_mul]
    have := hr m hm
    nlinarith [abs_nonneg s.omega, norm_nonneg (vec m.translation)]
  · intro j
    have hj : shippedRobot.modules[j] ∈ shippedRobot.modules := List.getElem_mem _
    have hf : maxForce shippedRobot.modules[j] = 50 := by
      generalize shippedRobot.modules[j] = m at hj
      simp only [shippedRobot, List.mem_cons, List.not_mem_nil, or_false] at hj
      rcases hj with rfl | rfl | rfl | rfl <;> simp [maxForce] <;> norm_num
    have hg : shippedRobot.modules.getD j ⟨⟨0, 0⟩, 0, 0, 0⟩ = shippedRobot.modules[j] := by
      simp
    rw [hf, hg]
    refine (norm_add_le _ _).trans ?_
    rw [norm_mul, norm_mul, norm_mul, norm_mul, hu, Complex.norm_I, Complex.norm_real,
      Complex.norm_real, Real.norm_eq_abs, Real.norm_eq_abs, mul_one, mul_one, abs_mul,
      abs_of_pos (by norm_num : (0 : ℝ) < 45 / 4), abs_of_pos (by norm_num : (0 : ℝ) < 25 / 12)]
    have := hr _ hj
    nlinarith [abs_nonneg s.alpha, norm_nonneg (vec shippedRobot.modules[j].translation)]

theorem shipped_gap (g : ℝ) (hg : Gap shippedRobot g) : g = 1.2 := by
  obtain ⟨h0, a, b, hab, h⟩ := hg
  simp only [shippedRobot, List.tail_cons, List.zip_cons_cons, List.zip_nil_right, List.mem_cons,
    Prod.mk.injEq, List.not_mem_nil, or_false] at hab
  rcases hab with ⟨rfl, rfl⟩ | ⟨rfl, rfl⟩ | ⟨rfl, rfl⟩ <;> rcases h with h | h <;>
    norm_num at h <;> (try exact absurd h h0) <;> rw [h] <;> norm_num

theorem shipped_brief : Brief shippedRobot 0.4 := by
  intro m hm g hg
  rw [shipped_gap g hg]
  simp only [shippedRobot, List.mem_cons, List.not_mem_nil, or_false] at hm
  rcases hm with rfl | rfl | rfl | rfl <;> norm_num

/-! ### The C++ examples -/

theorem ready_of {asserts : Bool} {ops : List (Op ℝ)} {dr : SwerveDrivetrain ℝ}
    (h : PathTable.AcceptsAll asserts PathTable.empty ops) (t : PathTable ℝ)
    (ht : t = PathTable.empty.afterAll ops) (hd : t.drivetrain = some dr)
    (hw : t.counts.length < t.waypoints) (hs : sampleCount t.counts < 2 ^ 64) :
    table (run asserts ops Builder.new) = t ∧ Ready (run asserts ops Builder.new) dr := by
  have e := (C81_history asserts ops h).1
  rw [← ht] at e
  exact ⟨e, by rw [e]; exact hd, by rw [e]; exact hw, by rw [e]; exact hs⟩

theorem stop_pose {δ : ℝ} {p : ℂ} {θ x y h : ℝ} (hp : p = ⟨x, y⟩) (hθ : θ = h) :
    AllowsStop (.poseEquality x y h) δ p θ := by
  subst hp hθ
  exact fun s h1 h2 _ _ _ _ => ⟨h1, .inl h2⟩

/-- What is left to check about an example: numbers. -/
theorem shipped_drivable (asserts : Bool) (ops : List (Op ℝ))
    (hacc : PathTable.AcceptsAll asserts PathTable.empty ops) (t : PathTable ℝ)
    (ht : t = PathTable.empty.afterAll ops) (hd : t.drivetrain = some shippedRobot)
    (hw : t.counts.length < t.waypoints) (hs : sampleCount t.counts < 2 ^ 64)
    (L M : ℝ) (hL : L ≤ 6) (hLM : 6 * L + 8 * M ≤ 144) (hN : ∀ N ∈ t.counts, 30 ≤ N)
    (p : ℕ → ℂ) (θ : ℕ → ℝ) (γ : ℕ → ℝ → ℂ) (φ : ℕ → ℝ → ℝ)
    (hγ : ∀ s < t.counts.length, Smooth (γ s) L M ∧ γ s 0 = p s ∧ γ s 1 = p (s + 1))
    (hφ : ∀ s < t.counts.length, Smooth (φ s) L M ∧ φ s 0 = θ s ∧ φ s 1 = θ (s + 1))
    (hi : ∀ w ≤ t.counts.length, ∀ c ∈ t.instant w, AllowsStop c 1 (p w) (θ w))
    (hc : ∀ s < t.counts.length, ∀ c ∈ t.continuous s, Tolerates c 1 (γ s) (φ s))
    (x y h : ℝ) (hp : .poseEquality x y h ∈ t.instant 0) :
    (∀ before op after, ops = before ++ op :: after →
      (op.exec asserts (run asserts before Builder.new)).2 = none) ∧
    ∃ T, Fastest (run asserts ops Builder.new) shippedRobot T := by
  refine ⟨(C81_history asserts ops hacc).2, ?_⟩
  obtain ⟨e, hr⟩ := ready_of hacc t ht hd hw hs
  obtain ⟨T, hT, -⟩ := C79_enough shippedRobot shipped_radius 1 0.4 L M one_pos (by norm_num)
    shipped_manages shipped_brief p θ γ φ (run asserts ops Builder.new) ⟨asserts, ops, rfl⟩ hr
    (by rwa [e]) (by rwa [e]) (by
      rw [e]
      intro N h
      have h30 : (30 : ℝ) ≤ N := by exact_mod_cast hN N h
      refine ⟨by have := hN N h; omega, by linarith, ?_⟩
      nlinarith) (by rwa [e]) (by rwa [e])
  exact C78_fastest _ shippedRobot ⟨T, hT⟩ 0 (Nat.zero_le _) x y h (by rwa [e]) shipped_apart
    (by norm_num [shippedRobot]) (by norm_num [shippedRobot])

/-- The same along straight lines. -/
theorem shipped_straight (asserts : Bool) (ops : List (Op ℝ))
    (hacc : PathTable.AcceptsAll asserts PathTable.empty ops) (t : PathTable ℝ)
    (ht : t = PathTable.empty.afterAll ops) (hd : t.drivetrain = some shippedRobot)
    (hw : t.counts.length < t.waypoints) (hs : sampleCount t.counts < 2 ^ 64)
    (hN : ∀ N ∈ t.counts, 30 ≤ N) (p : ℕ → ℂ) (θ : ℕ → ℝ)
    (hL : ∀ s < t.counts.length, ‖p (s + 1) - p s‖ ≤ 6 ∧ |θ (s + 1) - θ s| ≤ 6)
    (hi : ∀ w ≤ t.counts.length, ∀ c ∈ t.instant w, AllowsStop c 1 (p w) (θ w))
    (hc : ∀ s < t.counts.length, t.continuous s = [])
    (x y h : ℝ) (hp : .poseEquality x y h ∈ t.instant 0) :
    (∀ before op after, ops = before ++ op :: after →
      (op.exec asserts (run asserts before Builder.new)).2 = none) ∧
    ∃ T, Fastest (run asserts ops Builder.new) shippedRobot T :=
  shipped_drivable asserts ops hacc t ht hd hw hs 6 0 le_rfl (by norm_num) hN p θ
    (fun s => straight (p s) (p (s + 1))) (fun s => straight (θ s) (θ (s + 1)))
    (fun s hs => ⟨(smooth_straight _ _).mono (hL s hs).1 le_rfl, by simp [straight], by simp [straight]⟩)
    (fun s hs => ⟨(smooth_straight _ _).mono (hL s hs).2 le_rfl, by simp [straight], by simp [straight]⟩)
    hi (fun s hs c hcs => by rw [hc s hs] at hcs; simp at hcs) x y h hp

theorem stop_noSpeed {δ : ℝ} {p : ℂ} {θ m : ℝ} :
    AllowsStop (.linearVelocityMaxMagnitude m) δ p θ := by
  intro s _ _ h3 _ _ _
  simp [Meaning, h3]

theorem stop_noTurn {δ : ℝ} {p : ℂ} {θ : ℝ} :
    AllowsStop (.angularVelocityMaxMagnitude 0) δ p θ := by
  intro s _ _ _ h4 _ _
  simp [Meaning, h4]

theorem stop_direction {δ : ℝ} {p : ℂ} {θ a : ℝ} :
    AllowsStop (.linearVelocityDirection a) δ p θ :=
  fun s _ _ h3 _ _ _ => ⟨0, by simp [h3]⟩

theorem stop_translation {δ : ℝ} {p : ℂ} {θ x y : ℝ} (hp : p = ⟨x, y⟩) :
    AllowsStop (.translationEquality ⟨x, y⟩) δ p θ := by
  subst hp
  exact fun s h1 _ _ _ _ _ => h1

theorem norm_le_six {z : ℂ} (h : |z.re| ≤ 3) (h' : |z.im| ≤ 3) : ‖z‖ ≤ 6 :=
  (Complex.norm_le_abs_re_add_abs_im z).trans (by linarith)

/-- Computes the table of a concrete history. -/
local macro "tables" : tactic => `(tactic|
  simp [Examples.cpp1, Examples.cpp2, Examples.cpp3, Examples.cpp4, Examples.cpp5, Examples.cpp6,
    Examples.cpp7, Examples.noSpeed, Examples.noTurn, PathTable.AcceptsAll, PathTable.Accepts,
    PathTable.afterAll, PathTable.after, PathTable.empty, PathTable.reach, PathTable.requireAt,
    PathTable.requireAlong, PathTable.requireAllAlong, PathTable.Suits,
    PathTable.guessAt, examples_robot, sampleCount, Constraint.mkLinearVelocityDirection])

/-- Checks that waypoint constraints allow stopping. -/
local macro "stops" : tactic => `(tactic|
  (tables
   try repeat' apply And.intro
   all_goals first
     | exact stop_noSpeed
     | exact stop_noTurn
     | exact stop_direction
     | exact stop_pose (by simp [Complex.ext_iff]) (by simp)
     | exact stop_translation (by simp [Complex.ext_iff])))

/-- Bounds a turn. -/
local macro "turns" : tactic => `(tactic|
  (simp
   try (rw [abs_le]; constructor <;> linarith [Real.pi_le_four, Real.pi_pos])))

/-- All calls of the history return, and there is a fastest trajectory for the path. -/
def Works (asserts : Bool) (ops : List (Op ℝ)) (dr : SwerveDrivetrain ℝ) : Prop :=
  (∀ before op after, ops = before ++ op :: after →
    (op.exec asserts (run asserts before Builder.new)).2 = none) ∧
  ∃ T, Fastest (run asserts ops Builder.new) dr T

theorem shipped1 (asserts : Bool) : Works asserts Examples.cpp1 shippedRobot := by
  refine shipped_straight asserts Examples.cpp1 (by tables) _ rfl (by tables) (by tables)
    (by tables) (by tables) (fun w => ([0, 1] : List ℂ).getD w 0) (fun _ => 0) ?_ ?_ (by tables) 0 0 0
    (by tables)
  · tables
  · intro w hw
    replace hw : w ≤ 1 := hw
    interval_cases w <;> stops

theorem shipped2 (asserts : Bool) : Works asserts Examples.cpp2 shippedRobot := by
  refine shipped_straight asserts Examples.cpp2 (by tables) _ rfl (by tables) (by tables)
    (by tables) (by tables) (fun w => ([⟨1, 1⟩, 2] : List ℂ).getD w 0)
    (fun w => ([-Real.pi / 2, 0] : List ℝ).getD w 0) ?_ ?_ (by tables) 1 1 (-Real.pi / 2)
    (by tables)
  · intro s hs
    replace hs : s < 1 := hs
    interval_cases s
    refine ⟨norm_le_six (by norm_num) (by norm_num), ?_⟩
    turns
  · intro w hw
    replace hw : w ≤ 1 := hw
    interval_cases w <;> stops

theorem shipped3 (asserts : Bool) : Works asserts Examples.cpp3 shippedRobot := by
  refine shipped_straight asserts Examples.cpp3 (by tables) _ rfl (by tables) (by tables)
    (by tables) (by tables) (fun w => ([0, ⟨1, 1⟩, 2] : List ℂ).getD w 0)
    (fun w => ([Real.pi / 2, 0, Real.pi / 2] : List ℝ).getD w 0) ?_ ?_ (by tables) 0 0 (Real.pi / 2)
    (by tables)
  · intro s hs
    replace hs : s < 2 := hs
    interval_cases s
    · refine ⟨norm_le_six (by norm_num) (by norm_num), ?_⟩
      turns
    · refine ⟨norm_le_six (by norm_num) (by norm_num), ?_⟩
      turns
  · intro w hw
    replace hw : w ≤ 2 := hw
    interval_cases w <;> stops

theorem shipped4 (asserts : Bool) : Works asserts Examples.cpp4 shippedRobot := by
  refine shipped_straight asserts Examples.cpp4 (by tables) _ rfl (by tables) (by tables)
    (by tables) (by tables) (fun w => ([0, Complex.I] : List ℂ).getD w 0) (fun _ => 0) ?_ ?_
    (by tables) 0 0 0 (by tables)
  · tables
  · intro w hw
    replace hw : w ≤ 1 := hw
    interval_cases w <;> stops

theorem shipped5 (asserts : Bool) : Works asserts Examples.cpp5 shippedRobot := by
  refine shipped_straight asserts Examples.cpp5 (by tables) _ rfl (by tables) (by tables)
    (by tables) (by tables) (fun w => ([0, 1] : List ℂ).getD w 0) (fun _ => 0) ?_ ?_ (by tables) 0 0 0
    (by tables)
  · tables
  · intro w hw
    replace hw : w ≤ 1 := hw
    interval_cases w <;> stops

theorem shipped6 (asserts : Bool) : Works asserts Examples.cpp6 shippedRobot := by
  refine shipped_straight asserts Examples.cpp6 (by tables) _ rfl (by tables) (by tables)
    (by tables) (by tables) (fun w => ([0, ⟨1, 1⟩, ⟨1, 2⟩, ⟨1, 1⟩, 2] : List ℂ).getD w 0)
    (fun w => ([0, Real.pi / 2, Real.pi / 2, Real.pi / 2, Real.pi] : List ℝ).getD w 0) ?_ ?_
    (by tables) 0 0 0 (by tables)
  · intro s hs
    replace hs : s < 4 := hs
    interval_cases s
    · refine ⟨norm_le_six (by norm_num) (by norm_num), ?_⟩
      turns
    · refine ⟨norm_le_six (by norm_num) (by norm_num), ?_⟩
      turns
    · refine ⟨norm_le_six (by norm_num) (by norm_num), ?_⟩
      turns
    · refine ⟨norm_le_six (by norm_num) (by norm_num), ?_⟩
      turns
  · intro w hw
    replace hw : w ≤ 4 := hw
    interval_cases w <;> stops

/-- Half a circle around (1, 0). -/
theorem smooth_arc : Smooth (fun u : ℝ => (1 : ℂ) - Complex.exp (-(Real.pi * u : ℝ) * Complex.I))
    Real.pi (Real.pi ^ 2) := by
  have hn : ∀ u : ℝ, ‖Complex.exp (-(Real.pi * u : ℝ) * Complex.I)‖ = 1 := by
    intro u
    rw [← Complex.ofReal_neg]
    exact Complex.norm_exp_ofReal_mul_I _
  have hd : ∀ u : ℝ, HasDerivAt (fun u : ℝ => Complex.exp (-(Real.pi * u : ℝ) * Complex.I))
      (-(Real.pi : ℂ) * Complex.I * Complex.exp (-(Real.pi * u : ℝ) * Complex.I)) u := by
    intro u
    have h1 : HasDerivAt (fun u : ℝ => -((Real.pi * u : ℝ) : ℂ) * Complex.I)
        (-(Real.pi : ℂ) * Complex.I) u := by
      have := (((hasDerivAt_id u).const_mul Real.pi).ofReal_comp.neg).mul_const Complex.I
      simpa using this
    simpa [mul_comm] using h1.cexp
  refine ⟨fun u => Real.pi * Complex.I * Complex.exp (-(Real.pi * u : ℝ) * Complex.I), ?_⟩
  intro u _
  refine ⟨?_, ?_, fun v _ => ?_⟩
  · have := ((hd u).const_sub 1).hasDerivWithinAt (s := Set.Icc (0 : ℝ) 1)
    simpa using this
  · rw [norm_mul, hn, norm_mul, Complex.norm_I, Complex.norm_real, Real.norm_eq_abs,
      abs_of_pos Real.pi_pos]
    simp
  · rw [← mul_sub, norm_mul, norm_mul, Complex.norm_I, Complex.norm_real, Real.norm_eq_abs,
      abs_of_pos Real.pi_pos]
    have := (convex_univ (𝕜 := ℝ) (E := ℝ)).norm_image_sub_le_of_norm_hasDerivWithin_le
      (C := Real.pi) (fun x _ => (hd x).hasDerivWithinAt) (fun x _ => by
        rw [norm_mul, hn, norm_mul, Complex.norm_I, norm_neg, Complex.norm_real, Real.norm_eq_abs,
          abs_of_pos Real.pi_pos]
        simp) (Set.mem_univ v) (Set.mem_univ u)
    rw [Real.norm_eq_abs] at this
    nlinarith [Real.pi_pos]

theorem shipped7 (asserts : Bool) : Works asserts Examples.cpp7 shippedRobot := by
  have hpi := Real.pi_lt_d2
  have far : ∀ s : State, ‖s.pos - 1‖ = 1 → Meaning (.pointPoint ⟨0, 0⟩ ⟨1, 0⟩ 1) s := by
    intro s h
    have e : s.onRobot ⟨0, 0⟩ = s.pos := by
      simp [State.onRobot, vec, show (⟨0, 0⟩ : ℂ) = 0 from rfl]
    simp only [Meaning, e, vec, dist_eq_norm]
    rw [show (⟨1, 0⟩ : ℂ) = 1 from rfl, h]
    simp
  refine shipped_drivable asserts Examples.cpp7 (by tables) _ rfl (by tables) (by tables)
    (by tables) Real.pi (Real.pi ^ 2) (by linarith) (by nlinarith [Real.pi_pos]) (by tables)
    (fun w => ([0, 2] : List ℂ).getD w 0) (fun _ => 0)
    (fun _ u => (1 : ℂ) - Complex.exp (-(Real.pi * u : ℝ) * Complex.I)) (fun _ _ => 0) ?_ ?_ ?_ ?_ 0 0 0
    (by tables)
  · intro s hs
    replace hs : s < 1 := hs
    interval_cases s
    refine ⟨smooth_arc, by simp, ?_⟩
    simp [Complex.exp_neg]
    norm_num
  · intro s _
    refine ⟨⟨fun _ => 0, fun u _ => ⟨hasDerivWithinAt_const _ _ _, by simpa using Real.pi_pos.le, ?_⟩⟩,
      rfl, rfl⟩
    intro v _
    simp only [sub_zero, norm_zero]
    positivity
  · intro w hw
    replace hw : w ≤ 1 := hw
    have h0 : AllowsStop (.pointPoint ⟨0, 0⟩ ⟨1, 0⟩ 1) 1 0 0 := fun s h _ _ _ _ _ =>
      far s (by simp [h])
    have h2 : AllowsStop (.pointPoint ⟨0, 0⟩ ⟨1, 0⟩ 1) 1 2 0 := fun s h _ _ _ _ _ =>
      far s (by rw [h]; norm_num)
    interval_cases w
    · tables
      exact ⟨stop_pose (by simp [Complex.ext_iff]) rfl, h0, stop_noSpeed⟩
    · tables
      exact ⟨h2, stop_pose (by simp [Complex.ext_iff]) rfl, stop_noSpeed⟩
  · intro s hs
    replace hs : s < 1 := hs
    interval_cases s
    tables
    intro u _ s h _ _ _ _ _
    refine far s ?_
    have := Complex.norm_exp_ofReal_mul_I (-(Real.pi * u))
    rw [h]
    simpa using this

/-- C82, what holds: every example of the C++ example program works: all its calls return, and a fastest
trajectory for its path exists.  Missing: the Rust example (`C82_rust_refuted`) and the skipped
test (`C82_test_undefined`, `C82_test_refuted`). -/
theorem C82_cpp_partial (asserts : Bool) (ops : List (Op ℝ)) (h : ops ∈ Examples.cpp) :
    Works asserts ops Examples.robot := by
  rw [examples_robot]
  simp only [Examples.cpp, List.mem_cons, List.not_mem_nil, or_false] at h
  rcases h with rfl | rfl | rfl | rfl | rfl | rfl | rfl
  exacts [shipped1 asserts, shipped2 asserts, shipped3 asserts, shipped4 asserts, shipped5 asserts,
    shipped6 asserts, shipped7 asserts]

/-- C82: every C++ example names the waypoints its segments join and no others. -/
theorem C82_shapes (asserts : Bool) (ops : List (Op ℝ)) (h : ops ∈ Examples.cpp) :
    (table (run asserts ops Builder.new)).waypoints =
      (table (run asserts ops Builder.new)).counts.length + 1 := by
  simp only [Examples.cpp, List.mem_cons, List.not_mem_nil, or_false] at h
  rcases h with rfl | rfl | rfl | rfl | rfl | rfl | rfl <;>
    rw [(C81_history asserts _ (by tables)).1] <;> tables

/-- C82, non-vacuity: seven examples, the last with a keep-out constraint on its way. -/
example : (Examples.cpp : List (List (Op ℝ))).length = 7 ∧ Examples.cpp7 ∈ (Examples.cpp : List (List (Op ℝ))) ∧
    .pointPoint ⟨0, 0⟩ ⟨1, 0⟩ 1 ∈ (table (run true Examples.cpp7 (Builder.new : Builder ℝ))).continuous 0 := by
  refine ⟨rfl, by simp [Examples.cpp], ?_⟩
  rw [(C81_history true Examples.cpp7 (by tables)).1]
  tables

/-- C82: the obstacle of Example 5 does nothing: without bumpers the path is the one without the call. -/
theorem C82_obstacle_ignored (asserts : Bool) : ∃ pre o post,
    (Examples.cpp5 : List (Op ℝ)) = pre ++ .sgmtObstacle 0 1 o :: post ∧ o.points = [⟨0.5, 0.5⟩] ∧
    table (run asserts Examples.cpp5 Builder.new) = table (run asserts (pre ++ post) Builder.new) := by
  refine ⟨[_, _], _, [_, _, _, _], rfl, by norm_num, ?_⟩
  rw [(C81_history asserts Examples.cpp5 (by tables)).1, (C81_history asserts _ (by tables)).1]
  tables

/-- C82: the guess that Example 7 adds, commented "Tell optimizer to go in +y direction rather than -y", does
nothing: the path is the one without the call. -/
theorem C82_guess_ignored (asserts : Bool) : ∃ pre p post,
    (Examples.cpp7 : List (Op ℝ)) = pre ++ .wptInitialGuessPoint 0 p :: post ∧
    table (run asserts Examples.cpp7 Builder.new) = table (run asserts (pre ++ post) Builder.new) := by
  refine ⟨[_, _, _], _, [_, _, _, _], rfl, ?_⟩
  rw [(C81_history asserts Examples.cpp7 (by tables)).1, (C81_history asserts _ (by tables)).1]
  tables
  funext w
  by_cases h : w = 0 <;> simp [h]

/-! ### The Rust example and the skipped test -/

/-- A heading within `ε` of a given one or its opposite, here 0. -/
theorem along_one {ε : ℝ} (hε : 0 ≤ ε) (hε' : ε ≤ 1 / 100) {h : ℂ} (ha : Along ε h (unitVec 0)) :
    ∃ u : ℂ, (u = h ∨ u = -h) ∧ ‖u - 1‖ ≤ 3 * ε := by
  obtain ⟨h1, h2⟩ := ha
  have e : unitVec 0 = 1 := by simp [unitVec]
  rw [e, map_one, mul_one] at h1
  rw [← Complex.normSq_eq_norm_sq, Complex.normSq_apply, abs_le] at h2
  have key : ∀ u : ℂ, |u.im| ≤ ε → 0 ≤ u.re → -ε ≤ u.re * u.re + u.im * u.im - 1 →
      u.re * u.re + u.im * u.im - 1 ≤ ε → ‖u - 1‖ ≤ 3 * ε := by
    intro u h1 h0 h2 h3
    refine (Complex.norm_le_abs_re_add_abs_im _).trans ?_
    have him : u.im * u.im ≤ ε * ε := by
      rw [← abs_mul_abs_self u.im]
      exact mul_self_le_mul_self (abs_nonneg _) h1
    have h4 : |u.re - 1| ≤ 2 * ε := by
      rw [abs_le]
      constructor <;> nlinarith [mul_self_nonneg u.im]
    simp only [Complex.sub_re, Complex.one_re, Complex.sub_im, Complex.one_im, sub_zero]
    linarith
  rcases le_total 0 h.re with h0 | h0
  · exact ⟨h, .inl rfl, key h h1 h0 h2.1 h2.2⟩
  · refine ⟨-h, .inr rfl, key (-h) ?_ ?_ ?_ ?_⟩ <;>
      simp only [Complex.neg_im, Complex.neg_re, abs_neg, neg_mul_neg] <;> linarith

theorem near_norm {ε : ℝ} {z w : ℂ} (h : Near ε z w) : ‖z - w‖ ≤ 2 * ε := by
  refine (Complex.norm_le_abs_re_add_abs_im _).trans ?_
  simp only [Complex.sub_re, Complex.sub_im]
  linarith [h.1, h.2]

local macro "rust_tables" : tactic => `(tactic|
  simp [Examples.rust, Examples.rustWheel, Examples.obstacleTest, counterpart, drivetrainOf, rectangle,
    PathTable.AcceptsAll, PathTable.Accepts, PathTable.afterAll, PathTable.after, PathTable.empty,
    PathTable.reach, PathTable.requireAt, PathTable.requireAllAlong, PathTable.Suits, PathTable.guessAt,
    sampleCount, keepOuts, edges])

/-- Robot point seen in the field, up to the tolerance. -/
theorem onRobot_near {ε : ℝ} {s : State} {r : Translation2 ℝ} {u p : ℂ} (σ : ℂ) (hs : s.heading = σ * u)
    (hp : Near ε s.pos p) (hu : ‖u - 1‖ ≤ 3 * ε) (hr : ‖vec r * σ‖ ≤ 1) :
    ‖s.onRobot r - (p + vec r * σ)‖ ≤ 5 * ε := by
  have e : s.onRobot r - (p + vec r * σ) = (s.pos - p) + vec r * σ * (u - 1) := by
    simp only [State.onRobot, hs]
    ring
  rw [e]
  refine (norm_add_le _ _).trans ?_
  rw [norm_mul]
  have h1 := near_norm hp
  have h0 := norm_nonneg (u - 1)
  nlinarith [norm_nonneg (vec r * σ)]

/-- A robot at the origin with an edge from (0.65, -0.65) to (0.65, 0.65), and its mirror image, is too close to
(0.5, 0.1). -/
theorem rust_too_close {ε : ℝ} (hε : 0 ≤ ε) (hε' : ε ≤ 1 / 100) (s : State)
    (h1 : MeaningWithin ε (.poseEquality 0 0 0) s)
    (h2 : MeaningWithin ε (.linePoint ⟨0.65, -0.65⟩ ⟨0.65, 0.65⟩ ⟨0.5, 0.1⟩ 0.21) s)
    (h3 : MeaningWithin ε (.linePoint ⟨-0.65, 0.65⟩ ⟨-0.65, -0.65⟩ ⟨0.5, 0.1⟩ 0.21) s) : False := by
  obtain ⟨hp, ha⟩ := h1
  obtain ⟨u, hu, hu1⟩ := along_one hε hε' ha
  -- the point of the edge closest to the obstacle
  have close : ∀ q : ℂ, ‖q - (0.65 + 0.1 * Complex.I)‖ ≤ 5 * ε →
      ¬ (0.21 : ℝ) ^ 2 ≤ dist q (vec ⟨0.5, 0.1⟩) ^ 4 + ε := by
    intro q hq h
    have hd : dist q (vec ⟨0.5, 0.1⟩) ≤ 0.2 := by
      rw [dist_eq_norm, show q - vec ⟨0.5, 0.1⟩ = (q - (0.65 + 0.1 * Complex.I)) + (0.15 : ℝ) by
        apply Complex.ext
        all_goals simp [vec]
        all_goals norm_num
        ring]
      refine (norm_add_le _ _).trans ?_
      rw [Complex.norm_real, Real.norm_eq_abs, abs_of_pos (by norm_num)]
      linarith
    have : dist q (vec ⟨0.5, 0.1⟩) ^ 4 ≤ 0.2 ^ 4 := by gcongr
    norm_num at h this
    linarith
  have hseg : ∀ (a c r : Translation2 ℝ) (t : ℝ), 0 ≤ t → t ≤ 1 → 
      vec r = (1 - t) * vec a + t * vec c → s.onRobot r ∈ segment ℝ (s.onRobot a) (s.onRobot c) := by
    intro a c r t h0 h1 he
    refine ⟨1 - t, t, by linarith, h0, by ring, ?_⟩
    simp only [State.onRobot, he, Complex.real_smul]
    push_cast
    ring
  have hn : ‖(⟨0.65, 0.1⟩ : ℂ)‖ ≤ 1 := by
    refine (Complex.norm_le_abs_re_add_abs_im _).trans ?_
    norm_num [abs_of_pos]
  have he : (⟨0.65, 0.1⟩ : ℂ) = 0.65 + 0.1 * Complex.I := by
    apply Complex.ext <;> simp
  have hz : vec (⟨0, 0⟩ : Translation2 ℝ) = 0 := rfl
  rw [hz] at hp
  rcases hu with rfl | rfl
  · refine close (s.onRobot ⟨0.65, 0.1⟩) ?_ (h2.2 _ (hseg _ _ _ (75 / 130) (by norm_num) (by norm_num) ?_))
    · have := onRobot_near (r := ⟨0.65, 0.1⟩) 1 (one_mul _).symm hp hu1 (by rw [mul_one]; exact hn)
      rw [mul_one, zero_add] at this
      rwa [← he]
    · apply Complex.ext <;> simp [vec] <;> norm_num
  · refine close (s.onRobot ⟨-0.65, -0.1⟩) ?_ (h3.2 _ (hseg _ _ _ (75 / 130) (by norm_num) (by norm_num) ?_))
    · have hm : vec ⟨-0.65, -0.1⟩ * -1 = (⟨0.65, 0.1⟩ : ℂ) := by apply Complex.ext <;> simp [vec]
      have := onRobot_near (r := ⟨-0.65, -0.1⟩) (-1) (by ring) hp hu1 (by rw [hm]; exact hn)
      rw [hm, zero_add] at this
      rwa [← he]
    · apply Complex.ext <;> simp [vec] <;> norm_num

/-- C82 is false for the Rust example: its calls return, the problem is generated, but no assignment comes
within 1/100 (the solver's tolerance is 1/10000) of feasibility, because at the first pose the bumpers lie
across the obstacle. -/
theorem C82_rust_refuted (asserts : Bool) :
    ∃ b, Rust.run asserts Examples.rust Rust.new = .ok b ∧ (table b).callbacks = [0] ∧ ∀ handle, ∃ g,
      Generator.construct b handle = .ok g ∧
      ∀ ε, 0 ≤ ε → ε ≤ 1 / 100 → ∀ σ, ¬ g.problem.FeasibleWithin ε σ := by
  obtain ⟨b, hb⟩ := C51_survives (D := ℝ) asserts Examples.rust (by
    intro c hc
    simp only [Examples.rust, List.mem_cons, List.not_mem_nil, or_false] at hc
    rcases hc with rfl | rfl | rfl | rfl | rfl | rfl | rfl | rfl | rfl
    all_goals simp [Acceptable, BadArgument, mustBeNonneg]
    all_goals norm_num)
  refine ⟨b, hb, ?_⟩
  have hrun := rust_reachable hb
  generalize hops : (Op.setDrivetrain ⟨Num.lit 0, Num.lit 0, []⟩ ::
    Examples.rust.filterMap counterpart : List (Op ℝ)) = ops at hrun
  have hacc : PathTable.AcceptsAll asserts PathTable.empty ops := by
    rw [← hops]
    rust_tables
    norm_num
  generalize ht : PathTable.empty.afterAll ops = t
  rw [← hops] at ht
  obtain ⟨e, hr⟩ := ready_of (dr := shippedRobot) hacc t (by rw [← ht, hops]) (by
      rw [← ht]
      rust_tables
      simp only [shippedRobot]
      norm_num) (by rw [← ht]; rust_tables) (by rw [← ht]; rust_tables)
  rw [← hrun] at e hr
  refine ⟨by rw [e, ← ht]; rust_tables, fun handle => ?_⟩
  have hi0 : ∀ c, c ∈ [.poseEquality 0 0 0, 
      .linePoint ⟨0.65, -0.65⟩ ⟨0.65, 0.65⟩ ⟨0.5, 0.1⟩ 0.21,
      .linePoint ⟨-0.65, 0.65⟩ ⟨-0.65, -0.65⟩ ⟨0.5, 0.1⟩ 0.21] → c ∈ (table b).instant 0 := by
    rw [e, ← ht]
    rust_tables
    norm_num
  obtain ⟨g, hg, hf, -⟩ := C69_problem 0 le_rfl b ⟨_, _, hrun⟩ shippedRobot hr shipped_radius handle
  refine ⟨g, hg, fun ε hε hε' σ h => ?_⟩
  obtain ⟨g', hg', hf, -⟩ := C69_problem ε hε b ⟨_, _, hrun⟩ shippedRobot hr shipped_radius handle
  rw [hg] at hg'
  cases hg'
  have hm := ((hf σ).mp h).instant 0 (Nat.zero_le _)
  exact rust_too_close hε hε' _ (hm _ (hi0 _ (by simp))) (hm _ (hi0 _ (by simp))) (hm _ (hi0 _ (by simp)))

theorem test_too_close {ε : ℝ} (hε : 0 ≤ ε) (hε' : ε ≤ 1 / 100) (s : State)
    (h1 : MeaningWithin ε (.poseEquality 0 0 0) s)
    (h2 : MeaningWithin ε (.pointPoint ⟨0.35, 0.35⟩ ⟨1, 1⟩ 1.1) s)
    (h3 : MeaningWithin ε (.pointPoint ⟨-0.35, -0.35⟩ ⟨1, 1⟩ 1.1) s) : False := by
  obtain ⟨hp, ha⟩ := h1
  obtain ⟨u, hu, hu1⟩ := along_one hε hε' ha
  have close : ∀ q : ℂ, ‖q - ⟨0.35, 0.35⟩‖ ≤ 5 * ε →
      ¬ (1.1 : ℝ) ^ 2 ≤ dist q (vec ⟨1, 1⟩) ^ 2 + ε := by
    intro q hq h
    have hn : ‖(⟨-0.65, -0.65⟩ : ℂ)‖ ≤ 0.93 := by
      have : ‖(⟨-0.65, -0.65⟩ : ℂ)‖ ^ 2 ≤ 0.93 ^ 2 := by
        rw [← Complex.normSq_eq_norm_sq, Complex.normSq_apply]
        norm_num
      exact le_of_sq_le_sq this (by norm_num)
    have hd : dist q (vec ⟨1, 1⟩) ≤ 0.98 := by
      rw [dist_eq_norm, show q - vec ⟨1, 1⟩ = (q - ⟨0.35, 0.35⟩) + ⟨-0.65, -0.65⟩ by
        apply Complex.ext
        all_goals simp [vec]
        all_goals norm_num
        all_goals ring]
      refine (norm_add_le _ _).trans ?_
      linarith
    have : dist q (vec ⟨1, 1⟩) ^ 2 ≤ 0.98 ^ 2 := by gcongr
    norm_num at h this
    linarith
  have hn : ‖(⟨0.35, 0.35⟩ : ℂ)‖ ≤ 1 := by
    refine (Complex.norm_le_abs_re_add_abs_im _).trans ?_
    norm_num [abs_of_pos]
  have hz : vec (⟨0, 0⟩ : Translation2 ℝ) = 0 := rfl
  rw [hz] at hp
  rcases hu with rfl | rfl
  · refine close (s.onRobot ⟨0.35, 0.35⟩) ?_ h2
    have := onRobot_near (r := ⟨0.35, 0.35⟩) 1 (one_mul _).symm hp hu1 (by rw [mul_one]; exact hn)
    rwa [mul_one, zero_add] at this
  · refine close (s.onRobot ⟨-0.35, -0.35⟩) ?_ h3
    have hm : vec ⟨-0.35, -0.35⟩ * -1 = (⟨0.35, 0.35⟩ : ℂ) := by apply Complex.ext <;> simp [vec]
    have := onRobot_near (r := ⟨-0.35, -0.35⟩) (-1) (by ring) hp hu1 (by rw [hm]; exact hn)
    rwa [hm, zero_add] at this

theorem test_accepts (asserts : Bool) (dr : List (SwerveDrivetrain ℝ)) :
    PathTable.AcceptsAll asserts PathTable.empty
      (dr.map Op.setDrivetrain ++ Examples.obstacleTest) := by
  have key : ∀ t : PathTable ℝ, t.bumpers = [] →
      PathTable.AcceptsAll asserts t Examples.obstacleTest := by
    intro t ht
    rust_tables
    rw [ht]
    norm_num
    simp
  have : ∀ t : PathTable ℝ, t.bumpers = [] → PathTable.AcceptsAll asserts t
      (dr.map Op.setDrivetrain ++ Examples.obstacleTest) := by
    induction dr with
    | nil => exact key
    | cons d dr ih => exact fun t ht => ⟨trivial, ih _ ht⟩
  exact this _ rfl

/-- C82 is false for the skipped test: its calls return, but constructing the generator reads a mass that
was never set. -/
theorem C82_test_undefined (asserts : Bool) (handle : ℤ) :
    (∀ before op after, Examples.obstacleTest = before ++ op :: after →
      (op.exec asserts (run asserts before (Builder.new : Builder ℝ))).2 = none) ∧
    Generator.construct (run asserts Examples.obstacleTest (Builder.new : Builder ℝ)) handle =
      .error .ub := by
  obtain ⟨h1, h2⟩ := C81_history asserts _ (test_accepts asserts [])
  rw [List.map_nil, List.nil_append] at h1 h2
  refine ⟨h2, ?_⟩
  obtain ⟨-, -, h, -⟩ := C30_outcomes (run asserts Examples.obstacleTest (Builder.new : Builder ℝ))
    ⟨_, _, rfl⟩ handle (by rw [h1]; rust_tables)
  exact h (by rw [h1]; rust_tables) (by rw [h1]; rust_tables)

/-- C82: had the test set a drivetrain, whichever, there would have been no feasible trajectory, nor an
assignment within 1/100 of being one, because at the first pose a corner of the robot is too close to the
obstacle. -/
theorem C82_test_refuted (asserts : Bool) (dr : SwerveDrivetrain ℝ)
    (hradius : ∀ m ∈ dr.modules, m.wheelRadius ≠ 0) (b : Builder ℝ)
    (hb : b = run asserts (.setDrivetrain dr :: Examples.obstacleTest) Builder.new) (handle : ℤ) :
    ∃ g, Generator.construct b handle = .ok g ∧
      ∀ ε, 0 ≤ ε → ε ≤ 1 / 100 → ∀ σ, ¬ g.problem.FeasibleWithin ε σ := by
  have hacc := test_accepts asserts [dr]
  generalize ht : PathTable.empty.afterAll ([dr].map Op.setDrivetrain ++ Examples.obstacleTest) = t
  obtain ⟨e, hr⟩ := ready_of (dr := dr) hacc t ht.symm (by rw [← ht]; rust_tables)
    (by rw [← ht]; rust_tables) (by rw [← ht]; rust_tables)
  change table (run asserts (.setDrivetrain dr :: Examples.obstacleTest) Builder.new) = t at e
  change Ready (run asserts (.setDrivetrain dr :: Examples.obstacleTest) Builder.new) dr at hr
  rw [← hb] at e hr
  have hi0 : ∀ c, c ∈ [.poseEquality 0 0 0, .pointPoint ⟨0.35, 0.35⟩ ⟨1, 1⟩ 1.1,
      .pointPoint ⟨-0.35, -0.35⟩ ⟨1, 1⟩ 1.1] → c ∈ (table b).instant 0 := by
    rw [e, ← ht]
    rust_tables
    norm_num
  obtain ⟨g, hg, -, -⟩ := C69_problem 0 le_rfl b ⟨_, _, hb⟩ dr hr hradius handle
  refine ⟨g, hg, fun ε hε hε' σ h => ?_⟩
  obtain ⟨g', hg', hf, -⟩ := C69_problem ε hε b ⟨_, _, hb⟩ dr hr hradius handle
  rw [hg] at hg'
  cases hg'
  have hm := ((hf σ).mp h).instant 0 (Nat.zero_le _)
  exact test_too_close hε hε' _ (hm _ (hi0 _ (by simp))) (hm _ (hi0 _ (by simp))) (hm _ (hi0 _ (by simp)))

end Trajopt.Props
