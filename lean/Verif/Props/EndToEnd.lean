import Verif.Spec.Report
import Verif.Props.FFI
import Verif.Props.Physics
import Verif.Props.Separation

/-!
# C71 From the calls to the samples

What someone who builds a path from Rust and calls `generate` can rely on, in terms of their calls
and of the samples returned, if the solver found values that satisfy all constraints.
-/

set_option autoImplicit false

namespace Trajopt.Props

open Spec Builder

/-- `generate` was called after `calls` and returned `samples`, the solver having found values that
satisfy all constraints.  `d` is the drivetrain set last, `counts` are the control interval counts
in the end. -/
structure Generated (calls : List (RustCall ℝ)) (d : RustDrivetrain ℝ) (counts : List ℕ)
    (samples : List (RustSample ℝ)) : Prop where
  run : ∃ asserts b what msg handle exit values, Rust.run asserts calls Rust.new = .ok b ∧
    (table b).counts = counts ∧ Rust.generate what msg b handle exit values = .ok (.ok samples) ∧
    ∀ g, Generator.construct b handle = .ok g → g.problem.Feasible values
  size : sampleCount counts < 2 ^ 64
  drivetrain : ∃ before after, calls = before ++ .set_drivetrain d :: after ∧
    ∀ d', .set_drivetrain d' ∉ after
  radius : ∀ m ∈ d.modules, m.wheel_radius ≠ 0

/-- The trajectory `T` behind the samples. -/
structure Behind (asserts : Bool) (calls : List (RustCall ℝ)) (d : RustDrivetrain ℝ)
    (counts : List ℕ) (samples : List (RustSample ℝ)) (b : Builder ℝ) (T : Traj) : Prop where
  history : Rust.run asserts calls Rust.new = .ok b
  intervals : (table b).counts = counts
  solves : Solves b (drivetrainOf d) T
  length : samples.length = sampleCount counts
  shows' : ∀ (k : ℕ) (s : RustSample ℝ), samples[k]? = some s →
    Shows s (T.state k) d.modules.length (T.force k)
  start : ∀ s : RustSample ℝ, samples[0]? = some s → s.timestamp = 0
  step : ∀ (k : ℕ) (s s' : RustSample ℝ), samples[k]? = some s → samples[k + 1]? = some s' →
    s'.timestamp = s.timestamp + stepTime counts T (k + 1)

theorem forall₂_get {α β : Type} {R : α → β → Prop} {l : List α} {l' : List β}
    (h : List.Forall₂ R l l') (k : ℕ) (y : β) (hy : l'[k]? = some y) :
    ∃ x, l[k]? = some x ∧ R x y := by
  induction h generalizing k with
  | nil => simp at hy
  | cons hr _ ih =>
    cases k with
    | zero => simp at hy; subst hy; exact ⟨_, rfl, hr⟩
    | succ k => simpa using ih k (by simpa using hy)

theorem getD_of_some {α : Type} {l : List α} {k : ℕ} {x : α} (d : α) (h : l[k]? = some x) :
    l.getD k d = x := by
  rw [List.getD_eq_getElem?_getD, h]; rfl

theorem Generated.behind {calls : List (RustCall ℝ)} {d : RustDrivetrain ℝ} {counts : List ℕ}
    {samples : List (RustSample ℝ)} (h : Generated calls d counts samples) :
    ∃ asserts b T, Behind asserts calls d counts samples b T := by
  obtain ⟨asserts, b, what, msg, handle, exit, values, hrun, hcounts, hgen, hfeas⟩ := h.run
  subst hcounts
  obtain ⟨before, after, rfl, hafter⟩ := h.drivetrain
  have hreach : Reachable b := ⟨_, _, rust_reachable hrun⟩
  have hdr : (table b).drivetrain = some (drivetrainOf d) := by
    rw [rust_reachable hrun, List.filterMap_append, List.filterMap_cons]
    change (table (Trajopt.run asserts ((.setDrivetrain ⟨Num.lit 0, Num.lit 0, []⟩ ::
      before.filterMap counterpart) ++ .setDrivetrain (drivetrainOf d) ::
      after.filterMap counterpart) Builder.new)).drivetrain = _
    apply C64_drivetrain
    intro d' hd'
    obtain ⟨c, hc, hcd⟩ := List.mem_filterMap.mp hd'
    cases c <;> simp only [counterpart, Option.some.injEq, reduceCtorEq] at hcd
    · exact hafter _ hc
    · split at hcd <;> simp at hcd
  obtain ⟨g, sol, cpp, hg, hsol, hcpp, hsame⟩ := C54_generate _ _ _ _ _ _ _ hgen
  obtain ⟨g0, g1, -, -⟩ := C51_generate what msg asserts _ b hrun handle exit values h.size _ rfl
  have hlt : (table b).counts.length < (table b).waypoints := by
    by_contra hle
    push Not at hle
    rcases Nat.eq_zero_or_pos (table b).waypoints with h0 | h0
    · have := g0 h0; rw [hgen] at this; cases this
    · have := g1 h0 hle; rw [hgen] at this; cases this
  have hr : Ready b (drivetrainOf d) := ⟨hdr, hlt, h.size⟩
  have hR : ∀ m ∈ (drivetrainOf d).modules, m.wheelRadius ≠ 0 := by
    intro m hm
    obtain ⟨m', hm', rfl⟩ := List.mem_map.mp hm
    exact h.radius m' hm'
  have hlenm : (drivetrainOf d).modules.length = d.modules.length := by simp [drivetrainOf]
  have hsolved : (g.withValues values).constructSwerveSolution = .ok sol := by
    unfold Generator.conclude at hsol
    split at hsol
    · cases hsol
    · split at hsol
      · cases hsol; assumption
      · cases hsol
  obtain ⟨sol', hs', hdtl, hx, hy, hc, hn, hvx, hvy, hom, -, -, -, hfx, hfy, hlens, hmods, hdt⟩ :=
    C44_solution b hreach _ hr handle g hg values
  have e : Except.ok sol = Except.ok sol' := hsolved.symm.trans hs'
  obtain rfl := Except.ok.inj e
  obtain ⟨f1, f2, f3, f4⟩ := C45_fields sol cpp hcpp
  have hlen : samples.length = sampleCount (table b).counts := by
    rw [← hsame.length_eq, f1, hlens sol.x (by simp)]
  refine ⟨asserts, b, decode g.vars values, hrun, rfl,
    ⟨hreach, hr, hR, handle, g, values, hg, hfeas g hg, ⟨fun _ _ => rfl, fun _ _ _ _ => rfl, fun _ _ => rfl⟩⟩,
    hlen, ?_, ?_, ?_⟩
  · intro k s hk
    obtain ⟨c, hck, hcs⟩ := forall₂_get hsame k s hk
    obtain ⟨k1, k2, k3, k4, k5, k6, k7, c', n', k8, k9, k10⟩ := f4 k c hck
    have get : ∀ {l : List ℕ} {l' : List ℝ} {x : ℝ}, l' = l.map values → l'[k]? = some x →
        values (l.getD k 0) = x := by
      intro l l' x e hx
      rw [e, List.getElem?_map, Option.map_eq_some_iff] at hx
      obtain ⟨i, hi, rfl⟩ := hx
      rw [getD_of_some 0 hi]
    have gets : ∀ {l : List (List ℕ)} {l' : List (List ℝ)} {x : List ℝ},
        l' = l.map (·.map values) → l'[k]? = some x → x = (l.getD k []).map values := by
      intro l l' x e hx
      rw [e, List.getElem?_map, Option.map_eq_some_iff] at hx
      obtain ⟨i, hi, rfl⟩ := hx
      rw [getD_of_some [] hi]
    have hFx := gets hfx k6
    have hFy := gets hfy k7
    have lx : c.moduleForcesX.length = d.modules.length :=
      ((hmods sol.moduleFX (by simp)).2 _ (List.mem_of_getElem? k6)).trans hlenm
    have ly : c.moduleForcesY.length = d.modules.length :=
      ((hmods sol.moduleFY (by simp)).2 _ (List.mem_of_getElem? k7)).trans hlenm
    constructor
    · simp only [decode]
      rw [get hx k1, get hy k2, hcs.x, hcs.y]
    · simp only [decode]
      rw [get hc k8, get hn k9, hcs.heading, k10, real_atan2]
    · simp only [decode]
      rw [get hvx k3, get hvy k4, hcs.velocity_x, hcs.velocity_y]
    · simp only [decode]
      rw [get hom k5, hcs.angular_velocity]
    · rw [hcs.module_forces_x, hcs.module_forces_y]
      exact ⟨lx, ly⟩
    · intro j hj
      simp only [decode]
      have one : ∀ (l : List ℕ), j < l.length → values (l.getD j 0) = (l.map values).getD j 0 := by
        intro l hl
        rw [getD_lt hl, getD_lt (by simpa using hl), List.getElem_map]
      rw [one _ (by rw [hFx, List.length_map] at lx; omega),
        one _ (by rw [hFy, List.length_map] at ly; omega), hcs.module_forces_x,
        hcs.module_forces_y, hFx, hFy]
  · intro s hs
    obtain ⟨c, hck, hcs⟩ := forall₂_get hsame 0 s hs
    rw [hcs.timestamp, f2 c hck]
    simp [Num.lit]
  · intro k s s' hk hk'
    obtain ⟨c, hck, hcs⟩ := forall₂_get hsame k s hk
    obtain ⟨c', hck', hcs'⟩ := forall₂_get hsame (k + 1) s' hk'
    obtain ⟨dt, hd1, hd2⟩ := f3 k c c' hck hck'
    rw [hcs.timestamp, hcs'.timestamp, hd2]
    congr 1
    have hkl : k + 1 < sampleCount (table b).counts := by
      rw [← hlen]
      exact (List.getElem?_eq_some_iff.mp hk').1
    obtain ⟨sg, hsg, hmem⟩ := segment_of_sample (Nat.succ_pos k) hkl
    rw [stepTime_eq _ hsg hmem]
    obtain ⟨v, hv1, hv2⟩ := hdt sg hsg (k + 1) hmem
    rw [Nat.add_sub_cancel, hd1] at hv2
    rw [Option.some.inj hv2]
    simp only [decode]
    rw [getD_of_some 0 hv1]

/-! ### What calls lead to -/

theorem call_split {asserts : Bool} {calls : List (RustCall ℝ)} {b : Builder ℝ}
    (h : Rust.run asserts calls Rust.new = .ok b) {c : RustCall ℝ} {op : Op ℝ} (hc : c ∈ calls)
    (hop : counterpart c = some op) : ∃ before after b0, b0 = run asserts before Builder.new ∧
      b = run asserts after (op.exec asserts b0).1 := by
  have hmem : op ∈ calls.filterMap counterpart := List.mem_filterMap.mpr ⟨c, hc, hop⟩
  obtain ⟨before, after, e⟩ := List.append_of_mem hmem
  have hb := rust_reachable h
  rw [e, ← List.cons_append] at hb
  refine ⟨.setDrivetrain ⟨Num.lit 0, Num.lit 0, []⟩ :: before, after, _, rfl, ?_⟩
  rw [hb]
  simp only [run, List.foldl_append, List.foldl_cons]

theorem instant_of_call {asserts : Bool} {calls : List (RustCall ℝ)} {b : Builder ℝ}
    (h : Rust.run asserts calls Rust.new = .ok b) {c : RustCall ℝ} {op : Op ℝ} (hc : c ∈ calls)
    (hop : counterpart c = some op) {i : ℕ} {k : Constraint ℝ}
    (hk : ∀ b0, Reachable b0 → ∃ b1 e, op.exec asserts b0 = (b1, e) ∧ k ∈ (table b1).instant i) :
    k ∈ (table b).instant i := by
  obtain ⟨before, after, b0, h0, h1⟩ := call_split h hc hop
  obtain ⟨b1, e, he, hm⟩ := hk b0 ⟨_, _, h0⟩
  have hr := run_snoc h0 he
  rw [he] at h1
  exact ((C10_append_only asserts _ after b1 b hr h1).2.1 i).subset hm

theorem along_of_call {asserts : Bool} {calls : List (RustCall ℝ)} {b : Builder ℝ}
    (h : Rust.run asserts calls Rust.new = .ok b) {c : RustCall ℝ} {i j : ℕ} (hij : i < j)
    (hj : j < 2 ^ 63) {k : Constraint ℝ} (hc : c ∈ calls)
    (hop : counterpart c = some (.sgmtConstraint i j k)) :
    (∀ w, i ≤ w → w ≤ j → k ∈ (table b).instant w) ∧
    (∀ s, i ≤ s → s < j → k ∈ (table b).continuous s) := by
  obtain ⟨before, after, b0, h0, h1⟩ := call_split h hc hop
  obtain ⟨b1, e1, t1⟩ := C11_sgmt_constraint asserts b0 ⟨_, _, h0⟩ i j hij hj k
  have he : (Op.sgmtConstraint i j k).exec asserts b0 = (b1, none) := e1
  have hr := run_snoc h0 he
  rw [he] at h1
  obtain ⟨-, hin, hco⟩ := C10_append_only asserts _ after b1 b hr h1
  refine ⟨fun w h1 h2 => (hin w).subset ?_, fun s h1 h2 => (hco s).subset ?_⟩
  · rw [t1]; simp [PathTable.requireAlong, h1, h2]
  · rw [t1]; simp [PathTable.requireAlong, h1, h2]

theorem along_meaning {b : Builder ℝ} {dr : SwerveDrivetrain ℝ} {T : Traj} (h : Solves b dr T)
    {k : Constraint ℝ} {i j : ℕ} (hi : i ≤ (table b).counts.length)
    (hin : ∀ w, i ≤ w → w ≤ j → k ∈ (table b).instant w)
    (hco : ∀ s, i ≤ s → s < j → k ∈ (table b).continuous s) (hij : i ≤ j) {n : ℕ}
    (h1 : waypointSample (table b).counts i ≤ n) (h2 : n ≤ waypointSample (table b).counts j) :
    Meaning k (T.state n) := by
  rcases sample_between _ i j n h1 h2 with rfl | ⟨s, hs1, hs2, hs3, hn⟩
  · exact h.obeys.instant i hi k (hin i (le_refl _) hij)
  · exact h.obeys.continuous s hs3 k (hco s hs1 hs2) n hn

theorem run_prefix {asserts : Bool} {xs ys : List (RustCall ℝ)} {b b' : Builder ℝ}
    (h : Rust.run asserts (xs ++ ys) b = .ok b') :
    ∃ b0, Rust.run asserts xs b = .ok b0 ∧ Rust.run asserts ys b0 = .ok b' := by
  induction xs generalizing b with
  | nil => exact ⟨b, rfl, h⟩
  | cons c xs ih =>
    rw [List.cons_append, Rust.run] at h
    rw [Rust.run]
    split at h
    · exact ih h
    · cases h

/-! ### Angles -/

theorem unitVec_arg {z : ℂ} (h : ‖z‖ = 1) : unitVec (Complex.arg z) = z := by
  have := Complex.norm_mul_exp_arg_mul_I z
  rwa [h, Complex.ofReal_one, one_mul] at this

theorem unitVec_sq (a : ℝ) : unitVec a ^ 2 = Complex.exp (2 * (a * Complex.I)) := by
  rw [unitVec, ← Complex.exp_nat_mul]
  norm_num

theorem angle_of_unitVec {a b : ℝ} (h : unitVec a = unitVec b ∨ unitVec a = -unitVec b) :
    ∃ n : ℤ, a = b + n * Real.pi := by
  have hsq : unitVec a ^ 2 = unitVec b ^ 2 := by
    rcases h with h | h <;> rw [h]
    ring
  rw [unitVec_sq, unitVec_sq, Complex.exp_eq_exp_iff_exists_int] at hsq
  obtain ⟨n, hn⟩ := hsq
  refine ⟨n, ?_⟩
  have := congrArg Complex.im hn
  simp at this
  linarith

theorem norm_unitVec (a : ℝ) : ‖unitVec a‖ = 1 := by
  rw [unitVec]; exact Complex.norm_exp_ofReal_mul_I a

theorem sum_getD (l : List ℝ) {n : ℕ} (h : l.length = n) : ∑ j : Fin n, l.getD j 0 = l.sum := by
  subst h
  have : ∀ j : Fin l.length, l.getD j 0 = l[j] := fun j => getD_lt j.2
  simp only [this]
  rw [← List.sum_ofFn]
  congr 1
  exact List.ofFn_getElem

/-! ### C71 -/

section
variable {calls : List (RustCall ℝ)} {d : RustDrivetrain ℝ} {counts : List ℕ}
  {samples : List (RustSample ℝ)}

theorem Behind.force_sum {asserts : Bool} {b : Builder ℝ} {T : Traj}
    (h : Behind asserts calls d counts samples b T) {k : ℕ} {s : RustSample ℝ}
    (hk : samples[k]? = some s) :
    s.module_forces_x.sum = d.mass * (T.state k).acc.re ∧
    s.module_forces_y.sum = d.mass * (T.state k).acc.im := by
  have hlt : k < sampleCount counts := by
    rw [← h.length]; exact (List.getElem?_eq_some_iff.mp hk).1
  have hsh := h.shows' k s hk
  have hlen : (drivetrainOf d).modules.length = d.modules.length := by simp [drivetrainOf]
  obtain ⟨h1, h2, -, -⟩ := C35_forces b _ T h.solves k (by rw [h.intervals]; exact hlt)
  have hF : ∀ j : Fin (drivetrainOf d).modules.length,
      T.force k j = ⟨s.module_forces_x.getD j 0, s.module_forces_y.getD j 0⟩ :=
    fun j => hsh.forces j (by have := j.2; omega)
  simp only [hF] at h1 h2
  rw [sum_getD _ (by rw [hsh.modules.1, hlen])] at h1
  rw [sum_getD _ (by rw [hsh.modules.2, hlen])] at h2
  exact ⟨h1, h2⟩

/-- C71: one sample per control interval and one more; time starts at 0 and does not run
backwards; between successive samples the robot moves by its later velocity, and its momentum
changes by the sum of the later module forces, times the elapsed time. -/
theorem C71_motion (h : Generated calls d counts samples) :
    samples.length = 1 + counts.sum ∧
    (∀ s : RustSample ℝ, samples[0]? = some s → s.timestamp = 0) ∧
    ∀ (k : ℕ) (s s' : RustSample ℝ), samples[k]? = some s → samples[k + 1]? = some s' →
      let Δ := s'.timestamp - s.timestamp
      0 ≤ Δ ∧ s'.x - s.x = Δ * s'.velocity_x ∧ s'.y - s.y = Δ * s'.velocity_y ∧
      d.mass * (s'.velocity_x - s.velocity_x) = Δ * s'.module_forces_x.sum ∧
      d.mass * (s'.velocity_y - s.velocity_y) = Δ * s'.module_forces_y.sum := by
  obtain ⟨asserts, b, T, hB⟩ := h.behind
  refine ⟨hB.length, hB.start, fun k s s' hk hk' => ?_⟩
  have hlt : k + 1 < sampleCount counts := by
    rw [← hB.length]; exact (List.getElem?_eq_some_iff.mp hk').1
  have ht := hB.step k s s' hk hk'
  have hs := hB.shows' k s hk
  have hs' := hB.shows' _ s' hk'
  have hcnt := hB.intervals
  subst hcnt
  have hI := hB.solves.interval (n := k + 1) (by omega) hlt
  obtain ⟨sg, hsg, hmem⟩ := segment_of_sample (Nat.succ_pos k) hlt
  have hpos : 0 ≤ stepTime (table b).counts T (k + 1) := by
    rw [stepTime_eq T hsg hmem]; exact hB.solves.obeys.time sg hsg
  obtain ⟨f1, f2⟩ := hB.force_sum hk'
  simp only
  rw [ht, add_sub_cancel_left, f1, f2]
  have hp := hI.pos
  have hv := hI.vel
  rw [Nat.add_sub_cancel, hs.pos, hs'.pos, hs'.vel, Complex.ext_iff] at hp
  rw [Nat.add_sub_cancel, hs.vel, hs'.vel, Complex.ext_iff] at hv
  simp only [Complex.add_re, Complex.add_im, Complex.mul_re, Complex.mul_im, Complex.ofReal_re,
    Complex.ofReal_im, zero_mul, sub_zero, add_zero] at hp hv
  refine ⟨hpos, by linarith [hp.1], by linarith [hp.2], ?_, ?_⟩
  · rw [hv.1]; ring
  · rw [hv.2]; ring

/-- What satisfied constraints mean for the sample. -/
theorem Behind.read {asserts : Bool} {b : Builder ℝ} {T : Traj}
    (h : Behind asserts calls d counts samples b T) {k : ℕ} {s : RustSample ℝ}
    (hk : samples[k]? = some s) :
    (∀ a, Meaning (.linearVelocityDirection a) (T.state k) →
      s.velocity_x * Real.sin a = s.velocity_y * Real.cos a) ∧
    (∀ m, Meaning (.linearVelocityMaxMagnitude m) (T.state k) →
      s.velocity_x ^ 2 + s.velocity_y ^ 2 ≤ m ^ 2) ∧
    (∀ m, Meaning (.angularVelocityMaxMagnitude m) (T.state k) → |s.angular_velocity| ≤ m) ∧
    (∀ m, Meaning (.linearAccelerationMaxMagnitude m) (T.state k) →
      s.module_forces_x.sum ^ 2 + s.module_forces_y.sum ^ 2 ≤ (d.mass * m) ^ 2) := by
  have hs := h.shows' k s hk
  obtain ⟨f1, f2⟩ := h.force_sum hk
  have hn : ∀ (z : ℂ) (m : ℝ), ‖z‖ ≤ |m| → z.re ^ 2 + z.im ^ 2 ≤ m ^ 2 := by
    intro z m hz
    have h1 := pow_le_pow_left₀ (norm_nonneg z) hz 2
    rw [sq_abs, ← Complex.normSq_eq_norm_sq, Complex.normSq_apply] at h1
    linarith
  refine ⟨fun a ha => ?_, fun m hm => ?_, fun m hm => ?_, fun m hm => ?_⟩
  · obtain ⟨t, ht⟩ := ha
    rw [hs.vel, Complex.ext_iff] at ht
    simp only [unitVec, Complex.mul_re, Complex.mul_im, Complex.ofReal_re, Complex.ofReal_im,
      Complex.exp_ofReal_mul_I_re, Complex.exp_ofReal_mul_I_im, zero_mul, sub_zero, add_zero] at ht
    rw [ht.1, ht.2]
    ring
  · have := hn _ m hm
    rwa [hs.vel] at this
  · rw [← hs.omega]; exact hm
  · have := mul_le_mul_of_nonneg_left (hn _ m hm) (sq_nonneg d.mass)
    rw [f1, f2]
    linarith

theorem Behind.at_waypoint {asserts : Bool} {b : Builder ℝ} {T : Traj}
    (h : Behind asserts calls d counts samples b T) {i : ℕ} (hi : i ≤ counts.length)
    (hi' : i < 2 ^ 63) {c : RustCall ℝ} {k : Constraint ℝ} (hc : c ∈ calls)
    (hop : counterpart c = some (.wptConstraint i k)) :
    Meaning k (T.state ((counts.take i).sum)) := by
  have hcnt := h.intervals
  subst hcnt
  refine h.solves.obeys.instant i hi k (instant_of_call h.history hc hop fun b0 h0 => ?_)
  obtain ⟨b1, e1, t1⟩ := C11_wpt_constraint b0 h0 i hi' k
  refine ⟨b1, none, e1, ?_⟩
  rw [t1]
  simp [PathTable.requireAt]

theorem Behind.pose {asserts : Bool} {b : Builder ℝ} {T : Traj}
    (h : Behind asserts calls d counts samples b T) {i : ℕ} (hi' : i < 2 ^ 63) {x y θ : ℝ}
    (hc : .pose_wpt i x y θ ∈ calls) : .poseEquality x y θ ∈ (table b).instant i := by
  refine instant_of_call h.history hc rfl fun b0 h0 => ?_
  obtain ⟨b1, e1, t1⟩ := C12_pose_wpt b0 h0 i hi' x y θ
  refine ⟨b1, none, e1, ?_⟩
  rw [t1]
  simp [PathTable.requireAt, PathTable.guessAt]

/-- C71: what calls about waypoint `i` guarantee about its sample.  (Of a prescribed heading only
the line is guaranteed, not the direction, see C20 and C34.) -/
theorem C71_waypoint (h : Generated calls d counts samples) (i : ℕ) (hi : i ≤ counts.length)
    (hi' : i < 2 ^ 63) (s : RustSample ℝ) (hs : samples[(counts.take i).sum]? = some s) :
    (∀ x y θ, .pose_wpt i x y θ ∈ calls →
      s.x = x ∧ s.y = y ∧ ∃ n : ℤ, s.heading = θ + n * Real.pi) ∧
    (∀ x y θ, .translation_wpt i x y θ ∈ calls → s.x = x ∧ s.y = y) ∧
    (∀ a, .wpt_linear_velocity_direction i a ∈ calls →
      s.velocity_x * Real.sin a = s.velocity_y * Real.cos a) ∧
    (∀ m, .wpt_linear_velocity_max_magnitude i m ∈ calls →
      s.velocity_x ^ 2 + s.velocity_y ^ 2 ≤ m ^ 2) ∧
    (∀ m, .wpt_angular_velocity_max_magnitude i m ∈ calls → |s.angular_velocity| ≤ m) ∧
    (∀ m, .wpt_linear_acceleration_max_magnitude i m ∈ calls →
      s.module_forces_x.sum ^ 2 + s.module_forces_y.sum ^ 2 ≤ (d.mass * m) ^ 2) := by
  obtain ⟨asserts, b, T, hB⟩ := h.behind
  obtain ⟨r1, r2, r3, r4⟩ := hB.read hs
  have hsh := hB.shows' _ s hs
  refine ⟨fun x y θ hc => ?_, fun x y θ hc => ?_, fun a hc => r1 a (hB.at_waypoint hi hi' hc rfl),
    fun m hc => r2 m (hB.at_waypoint hi hi' hc rfl), fun m hc => r3 m (hB.at_waypoint hi hi' hc rfl),
    fun m hc => r4 m (hB.at_waypoint hi hi' hc rfl)⟩
  · have hm := hB.pose hi' hc
    have hcnt := hB.intervals
    subst hcnt
    obtain ⟨hp, hd⟩ := hB.solves.obeys.instant i hi _ hm
    rw [waypointSample, hsh.pos, vec, Complex.ext_iff] at hp
    refine ⟨hp.1, hp.2, angle_of_unitVec ?_⟩
    have hu : ‖(T.state ((table b).counts.take i).sum).heading‖ = 1 := by
      rcases hd with e | e <;> rw [waypointSample] at e <;> rw [e] <;> simp [norm_unitVec]
    rw [hsh.heading, unitVec_arg hu]
    exact hd
  · have hm : .translationEquality ⟨x, y⟩ ∈ (table b).instant i := by
      refine instant_of_call hB.history hc rfl fun b0 h0 => ?_
      obtain ⟨b1, e1, t1⟩ := C12_translation_wpt b0 h0 i hi' x y θ
      refine ⟨b1, none, e1, ?_⟩
      rw [t1]
      simp [PathTable.requireAt, PathTable.guessAt]
    have hcnt := hB.intervals
    subst hcnt
    have hp := hB.solves.obeys.instant i hi _ hm
    rw [waypointSample, Meaning, hsh.pos, vec, Complex.ext_iff] at hp
    exact hp

theorem Behind.along {asserts : Bool} {b : Builder ℝ} {T : Traj}
    (h : Behind asserts calls d counts samples b T) {i j : ℕ} (hi : i ≤ counts.length)
    (hij : i < j) (hj : j < 2 ^ 63) {n : ℕ} (h1 : (counts.take i).sum ≤ n)
    (h2 : n ≤ (counts.take j).sum) {c : RustCall ℝ} {k : Constraint ℝ} (hc : c ∈ calls)
    (hop : counterpart c = some (.sgmtConstraint i j k)) : Meaning k (T.state n) := by
  obtain ⟨hin, hco⟩ := along_of_call h.history hij hj hc hop
  have hcnt := h.intervals
  subst hcnt
  exact along_meaning h.solves hi hin hco (le_of_lt hij) h1 h2

/-- C71: what calls about the segments from waypoint `i` to waypoint `j` guarantee about all
samples from `i`'s to `j`'s. -/
theorem C71_segment (h : Generated calls d counts samples) (i j : ℕ) (hi : i ≤ counts.length)
    (hij : i < j) (hj : j < 2 ^ 63) (n : ℕ) (h1 : (counts.take i).sum ≤ n)
    (h2 : n ≤ (counts.take j).sum) (s : RustSample ℝ) (hs : samples[n]? = some s) :
    (∀ a, .sgmt_linear_velocity_direction i j a ∈ calls →
      s.velocity_x * Real.sin a = s.velocity_y * Real.cos a) ∧
    (∀ m, .sgmt_linear_velocity_max_magnitude i j m ∈ calls →
      s.velocity_x ^ 2 + s.velocity_y ^ 2 ≤ m ^ 2) ∧
    (∀ m, .sgmt_angular_velocity_max_magnitude i j m ∈ calls → |s.angular_velocity| ≤ m) ∧
    (∀ m, .sgmt_linear_acceleration_max_magnitude i j m ∈ calls →
      s.module_forces_x.sum ^ 2 + s.module_forces_y.sum ^ 2 ≤ (d.mass * m) ^ 2) := by
  obtain ⟨asserts, b, T, hB⟩ := h.behind
  obtain ⟨r1, r2, r3, r4⟩ := hB.read hs
  exact ⟨fun a hc => r1 a (hB.along hi hij hj h1 h2 hc rfl),
    fun m hc => r2 m (hB.along hi hij hj h1 h2 hc rfl),
    fun m hc => r3 m (hB.along hi hij hj h1 h2 hc rfl),
    fun m hc => r4 m (hB.along hi hij hj h1 h2 hc rfl)⟩

/-- C71: no module's force exceeds what its motor can do. -/
theorem C71_forces (h : Generated calls d counts samples) (n : ℕ) (s : RustSample ℝ)
    (hs : samples[n]? = some s) :
    s.module_forces_x.length = d.modules.length ∧ s.module_forces_y.length = d.modules.length ∧
    ∀ (j : ℕ) (m : RustModule ℝ) (fx fy : ℝ), d.modules[j]? = some m →
      s.module_forces_x[j]? = some fx → s.module_forces_y[j]? = some fy →
      fx ^ 2 + fy ^ 2 ≤ (m.wheel_max_torque / m.wheel_radius) ^ 2 := by
  obtain ⟨asserts, b, T, hB⟩ := h.behind
  have hsh := hB.shows' n s hs
  refine ⟨hsh.modules.1, hsh.modules.2, fun j m fx fy hm hx hy => ?_⟩
  have hlt : n < sampleCount counts := by
    rw [← hB.length]; exact (List.getElem?_eq_some_iff.mp hs).1
  obtain ⟨hj, hmj⟩ := List.getElem?_eq_some_iff.mp hm
  have hlen : (drivetrainOf d).modules.length = d.modules.length := by simp [drivetrainOf]
  obtain ⟨-, -, -, hl⟩ := C35_forces b _ T hB.solves n (by rw [hB.intervals]; exact hlt)
  have hl := hl ⟨j, by omega⟩
  have hmm : (drivetrainOf d).modules[(⟨j, by omega⟩ : Fin (drivetrainOf d).modules.length)] =
      ⟨⟨m.x, m.y⟩, m.wheel_radius, m.wheel_max_angular_velocity, m.wheel_max_torque⟩ := by
    simp [drivetrainOf, hmj]
  rw [hmm] at hl
  have hF := hsh.forces j hj
  rw [getD_of_some 0 hx, getD_of_some 0 hy] at hF
  simp only [hF] at hl
  have h1 := pow_le_pow_left₀ (norm_nonneg _) hl 2
  rw [sq_abs, ← Complex.normSq_eq_norm_sq, Complex.normSq_apply] at h1
  linarith

/-- With a pose prescribed at some waypoint of the path, samples show the heading vector in full. -/
theorem Behind.facing {asserts : Bool} {b : Builder ℝ} {T : Traj}
    (h : Behind asserts calls d counts samples b T) {w : ℕ} (hw : w ≤ counts.length)
    (hw' : w < 2 ^ 63) {x y θ : ℝ} (hpose : .pose_wpt w x y θ ∈ calls) {n : ℕ} {s : RustSample ℝ}
    (hs : samples[n]? = some s) : (T.state n).heading = unitVec s.heading := by
  have hlt : n < sampleCount counts := by
    rw [← h.length]; exact (List.getElem?_eq_some_iff.mp hs).1
  have hm := h.pose hw' hpose
  have hsh := h.shows' n s hs
  have hcnt := h.intervals
  subst hcnt
  rw [hsh.heading, unitVec_arg (C33_pose_partial b _ T h.solves w hw x y θ hm n hlt)]

/-- C71: if a pose is prescribed at some waypoint, then between successive samples the heading
changes by the later angular velocity times the elapsed time (up to half turns, see C34), and the
angular momentum by the torque of the later module forces times the elapsed time. -/
theorem C71_turning (h : Generated calls d counts samples) (w : ℕ) (hw : w ≤ counts.length)
    (hw' : w < 2 ^ 63) (x y θ : ℝ) (hpose : .pose_wpt w x y θ ∈ calls)
    (k : ℕ) (s s' : RustSample ℝ) (hk : samples[k]? = some s) (hk' : samples[k + 1]? = some s') :
    let Δ := s'.timestamp - s.timestamp
    (∃ n : ℤ, s'.heading = s.heading + Δ * s'.angular_velocity + n * Real.pi) ∧
    d.moi * (s'.angular_velocity - s.angular_velocity) =
      Δ * ∑ j : Fin d.modules.length,
        ((d.modules[j].x * Real.cos s'.heading - d.modules[j].y * Real.sin s'.heading) *
            s'.module_forces_y.getD j 0 -
          (d.modules[j].x * Real.sin s'.heading + d.modules[j].y * Real.cos s'.heading) *
            s'.module_forces_x.getD j 0) := by
  obtain ⟨asserts, b, T, hB⟩ := h.behind
  have hlt : k + 1 < sampleCount counts := by
    rw [← hB.length]; exact (List.getElem?_eq_some_iff.mp hk').1
  have ht := hB.step k s s' hk hk'
  have hs := hB.shows' k s hk
  have hs' := hB.shows' _ s' hk'
  have hf := hB.facing hw hw' hpose hk
  have hf' := hB.facing hw hw' hpose hk'
  have hcnt := hB.intervals
  subst hcnt
  simp only
  rw [ht, add_sub_cancel_left]
  constructor
  · apply angle_of_unitVec
    have h34 := C34_partial b _ T hB.solves k hlt (by rw [hf, norm_unitVec])
    rw [hf, hf', hs'.omega, mul_comm s'.angular_velocity] at h34
    have hadd : ∀ a b : ℝ, unitVec a * unitVec b = unitVec (a + b) := by
      intro a b
      rw [unitVec, unitVec, unitVec, ← Complex.exp_add]
      congr 1
      push_cast
      ring
    rwa [neg_mul, hadd] at h34
  · have hI := (hB.solves.interval (n := k + 1) (by omega) hlt).omega
    rw [Nat.add_sub_cancel, hs.omega, hs'.omega] at hI
    obtain ⟨-, -, h3, -⟩ := C35_forces b _ T hB.solves (k + 1) hlt
    have hlen : (drivetrainOf d).modules.length = d.modules.length := by simp [drivetrainOf]
    have hsum : d.moi * (T.state (k + 1)).alpha = ∑ j : Fin d.modules.length,
        ((d.modules[j].x * Real.cos s'.heading - d.modules[j].y * Real.sin s'.heading) *
            s'.module_forces_y.getD j 0 -
          (d.modules[j].x * Real.sin s'.heading + d.modules[j].y * Real.cos s'.heading) *
            s'.module_forces_x.getD j 0) := by
      refine Eq.trans h3.symm ?_
      refine Fintype.sum_equiv (finCongr hlen) _ _ fun j => ?_
      have hj : (j : ℕ) < d.modules.length := by have := j.2; omega
      have hF := hs'.forces j hj
      have hmod : (drivetrainOf d).modules[j] = ⟨⟨(d.modules[(j : ℕ)]'hj).x, (d.modules[(j : ℕ)]'hj).y⟩,
          (d.modules[(j : ℕ)]'hj).wheel_radius, (d.modules[(j : ℕ)]'hj).wheel_max_angular_velocity,
          (d.modules[(j : ℕ)]'hj).wheel_max_torque⟩ := by
        rw [Fin.getElem_fin]; simp [drivetrainOf]
      simp only [hF, hf', hmod, unitVec, Complex.exp_ofReal_mul_I_re, Complex.exp_ofReal_mul_I_im]
      rfl
    rw [← hsum, hI]
    ring

/-- C71: if a pose is prescribed at some waypoint, no wheel turns faster than its motor can. -/
theorem C71_wheels (h : Generated calls d counts samples) (w : ℕ) (hw : w ≤ counts.length)
    (hw' : w < 2 ^ 63) (x y θ : ℝ) (hpose : .pose_wpt w x y θ ∈ calls)
    (n : ℕ) (s : RustSample ℝ) (hs : samples[n]? = some s) (m : RustModule ℝ) (hm : m ∈ d.modules) :
    (s.velocity_x * Real.cos s.heading + s.velocity_y * Real.sin s.heading -
        s.angular_velocity * m.y) ^ 2 +
      (s.velocity_y * Real.cos s.heading - s.velocity_x * Real.sin s.heading +
        s.angular_velocity * m.x) ^ 2 ≤ (m.wheel_radius * m.wheel_max_angular_velocity) ^ 2 := by
  obtain ⟨asserts, b, T, hB⟩ := h.behind
  have hlt : n < sampleCount counts := by
    rw [← hB.length]; exact (List.getElem?_eq_some_iff.mp hs).1
  have hsh := hB.shows' n s hs
  have hf := hB.facing hw hw' hpose hs
  have hcnt := hB.intervals
  subst hcnt
  have hsp := (hB.solves.obeys.dynamics n hlt).speed _ (List.mem_map.mpr ⟨m, hm, rfl⟩)
  have h1 := pow_le_pow_left₀ (norm_nonneg _) hsp 2
  rw [maxSpeed, sq_abs, ← Complex.normSq_eq_norm_sq, Complex.normSq_apply, wheelVelocity, hf,
    hsh.vel, hsh.omega] at h1
  simp [vec, unitVec, Complex.exp_ofReal_mul_I_re, Complex.exp_ofReal_mul_I_im] at h1
  linarith

theorem pointAt_angle {st : State} {p : Translation2 ℝ} {tol : ℝ} (h0 : 0 ≤ tol)
    (h1 : tol ≤ Real.pi) (hunit : ‖st.heading‖ = 1) (h : Meaning (.pointAt p tol) st) :
    st.pos = vec p ∨ |Complex.arg ((vec p - st.pos) / st.heading)| ≤ tol := by
  have hc := C22_point_at (fun _ => 0) (constSample st) (constSample_defined _ _) p tol h0 h1
    (by rw [constSample_decode]; exact hunit)
  rw [constraint_meaning _ _ _ (constSample_defined _ _), constSample_decode] at hc
  exact hc.mp h

/-- C71: if a pose is prescribed at some waypoint, then a robot told to point at (px, py) from
waypoint `i` to `j` is at that point or faces it up to the tolerance. -/
theorem C71_point_at (h : Generated calls d counts samples) (w : ℕ) (hw : w ≤ counts.length)
    (hw' : w < 2 ^ 63) (x y θ : ℝ) (hpose : .pose_wpt w x y θ ∈ calls) (px py tol : ℝ)
    (h0 : 0 ≤ tol) (hpi : tol ≤ Real.pi) (i j : ℕ) (hi : i ≤ counts.length) (n : ℕ)
    (hcall : (.wpt_point_at i px py tol ∈ calls ∧ i < 2 ^ 63 ∧ n = (counts.take i).sum) ∨
      (.sgmt_point_at i j px py tol ∈ calls ∧ i < j ∧ j < 2 ^ 63 ∧ (counts.take i).sum ≤ n ∧
        n ≤ (counts.take j).sum))
    (s : RustSample ℝ) (hs : samples[n]? = some s) :
    (s.x = px ∧ s.y = py) ∨
    |Complex.arg (⟨px - s.x, py - s.y⟩ * unitVec (-s.heading))| ≤ tol := by
  obtain ⟨asserts, b, T, hB⟩ := h.behind
  have hsh := hB.shows' n s hs
  have hf := hB.facing hw hw' hpose hs
  have hm : Meaning (.pointAt ⟨px, py⟩ tol) (T.state n) := by
    rcases hcall with ⟨hc, hi', rfl⟩ | ⟨hc, hij, hj, h1, h2⟩
    · exact hB.at_waypoint hi hi' hc rfl
    · exact hB.along hi hij hj h1 h2 hc rfl
  rcases pointAt_angle h0 hpi (by rw [hf, norm_unitVec]) hm with e | e
  · left
    rw [hsh.pos, vec, Complex.ext_iff] at e
    exact e
  · right
    rw [hsh.pos, hf] at e
    have hv : (vec ⟨px, py⟩ - (⟨s.x, s.y⟩ : ℂ)) / unitVec s.heading =
        ⟨px - s.x, py - s.y⟩ * unitVec (-s.heading) := by
      rw [div_eq_mul_inv, unitVec, unitVec, ← Complex.exp_neg]
      congr 1
      congr 1
      push_cast
      ring
    rwa [hv] at e

/-- C71: if a pose is prescribed at some waypoint, and `set_bumpers` was called before the call that
keeps the robot out of a circle from waypoint `i` to `j`, then no point of the bumper rectangle's
outline comes closer to the circle's centre than the radius plus 1 cm (or the square root of that,
if it is smaller, see C24). -/
theorem C71_circle (before after : List (RustCall ℝ)) (i j : ℕ) (cx cy r : ℝ)
    (hcalls : calls = before ++ .sgmt_circle_obstacle i j cx cy r :: after)
    (h : Generated calls d counts samples) (w : ℕ) (hw : w ≤ counts.length)
    (hw' : w < 2 ^ 63) (x y θ : ℝ) (hpose : .pose_wpt w x y θ ∈ calls)
    (l v : ℝ) (hbum : .set_bumpers l v ∈ before) (hr : 0 ≤ r) (hi : i ≤ counts.length)
    (hij : i < j) (hj : j < 2 ^ 63) (n : ℕ) (h1 : (counts.take i).sum ≤ n)
    (h2 : n ≤ (counts.take j).sum) (s : RustSample ℝ) (hs : samples[n]? = some s) :
    ∀ z ∈ outline (sampleOnRobot s) (rectangle l v),
      min (1 / 100 + r) (Real.sqrt (1 / 100 + r)) ≤ dist z ⟨cx, cy⟩ := by
  obtain ⟨asserts, b, T, hB⟩ := h.behind
  have hsh := hB.shows' n s hs
  have hf := hB.facing hw hw' hpose hs
  have hrun := hB.history
  rw [hcalls] at hrun
  obtain ⟨b0, hb0, hb1⟩ := run_prefix hrun
  have hreach0 : Reachable b0 := ⟨_, _, rust_reachable hb0⟩
  have hbums := rust_bumpers hb0
  have hdoc := (C26_partial asserts b0 hreach0 ⟨r, [⟨cx, cy⟩]⟩ (by simp) (by simp)
    (fun bum hb => by
      have := (hbums bum hb).1
      intro e; rw [e] at this; simp at this)
    (by simp)
    (fun _ bum hb => by
      have := (hbums bum (List.mem_of_mem_dropLast hb)).1
      omega)
    (fun _ bum hb => by
      rw [(hbums bum hb).2]
      simp only [Num.lit, Dbl.le, decide_eq_true_eq]
      push_cast
      linarith)).2 i j hij hj
  obtain ⟨b1, e1, t1⟩ := hdoc
  have hbr : b = run asserts (.sgmtObstacle i j ⟨r, [⟨cx, cy⟩]⟩ :: after.filterMap counterpart) b0 :=
    ((C51_history _ _ _ _).mp hb1).2.2
  have hex : (Op.sgmtObstacle i j ⟨r, [⟨cx, cy⟩]⟩).exec asserts b0 = (b1, none) := e1
  have hr1 := run_snoc (rust_reachable hb0) hex
  rw [run, List.foldl_cons] at hbr
  change b = run asserts _ ((Op.sgmtObstacle i j ⟨r, [⟨cx, cy⟩]⟩).exec asserts b0).1 at hbr
  rw [hex] at hbr
  obtain ⟨-, hin, hco⟩ := C10_append_only asserts _ _ b1 b hr1 hbr
  let bum : Obstacle ℝ := ⟨1 / 100, rectangle l v⟩
  have hmemb : bum ∈ (table b0).bumpers := by
    rw [C53_partial asserts before b0 hb0]
    refine List.mem_map.mpr ⟨(l, v), List.mem_filterMap.mpr ⟨_, hbum, rfl⟩, ?_⟩
    simp [bum, Num.lit]
  have hkeep : ∀ k ∈ keepOuts ⟨r, [⟨cx, cy⟩]⟩ bum, Meaning k (T.state n) := by
    intro k hk
    have hk' : k ∈ (table b0).bumpers.flatMap (keepOuts ⟨r, [⟨cx, cy⟩]⟩) :=
      List.mem_flatMap.mpr ⟨bum, hmemb, hk⟩
    have hne : (table b0).bumpers.flatMap (keepOuts ⟨r, [⟨cx, cy⟩]⟩) ≠ [] := List.ne_nil_of_mem hk'
    have hcnt := hB.intervals
    subst hcnt
    refine along_meaning hB.solves hi (j := j) (fun u u1 u2 => (hin u).subset ?_)
      (fun u u1 u2 => (hco u).subset ?_) (le_of_lt hij) h1 h2
    · rw [t1, PathTable.requireAllAlong, if_neg hne]
      simp only [u1, u2, and_self, if_true]
      exact List.mem_append_right _ hk'
    · rw [t1, PathTable.requireAllAlong, if_neg hne]
      simp only [u1, u2, and_self, if_true]
      exact List.mem_append_right _ hk'
  have hon : (T.state n).onRobot = sampleOnRobot s := by
    funext q
    rw [State.onRobot, sampleOnRobot, hsh.pos, hf]
  have hd0 : (0 : ℝ) ≤ 1 / 100 + r := by linarith
  have key := outlines_apart (sampleOnRobot s) vec (rectangle l v) [⟨cx, cy⟩]
    (min (1 / 100 + r) (Real.sqrt (1 / 100 + r))) (by simp [rectangle]) (by simp)
    (by intro e _ e' he'; simp [edges] at he')
    (by
      intro e he q hq z hz
      have := hkeep _ (keepOuts_edge (obs := ⟨r, [⟨cx, cy⟩]⟩) (bum := bum) he hq)
      simp only [Meaning, hon, bum, abs_of_nonneg hd0] at this
      exact (min_le_right _ _).trans (Real.sqrt_le_iff.mpr ⟨dist_nonneg, this.2 z hz⟩))
    (by intro e he; simp [edges] at he)
    (by
      intro q hq p hp
      have := hkeep _ (keepOuts_point (obs := ⟨r, [⟨cx, cy⟩]⟩) (bum := bum) hq hp)
      simp only [Meaning, hon, bum, abs_of_nonneg hd0] at this
      exact (min_le_left _ _).trans this)
  intro z hz
  exact key z hz _ (.inl ⟨⟨cx, cy⟩, by simp, rfl⟩)

end

/-- Paths that can be driven are generated if the solver finds how. -/
theorem generated_of_obeys {asserts : Bool} {calls : List (RustCall ℝ)} {b : Builder ℝ}
    (hrun : Rust.run asserts calls Rust.new = .ok b) (d : RustDrivetrain ℝ)
    (hd : ∃ before after, calls = before ++ .set_drivetrain d :: after ∧
      ∀ d', .set_drivetrain d' ∉ after)
    (hR : ∀ m ∈ d.modules, m.wheel_radius ≠ 0) (hr : Ready b (drivetrainOf d)) (T : Traj)
    (hT : Obeys (table b) (drivetrainOf d) T) :
    ∃ samples, Generated calls d (table b).counts samples := by
  have hreach : Reachable b := ⟨_, _, rust_reachable hrun⟩
  have hR' : ∀ m ∈ (drivetrainOf d).modules, m.wheelRadius ≠ 0 := by
    intro m hm
    obtain ⟨m', hm', rfl⟩ := List.mem_map.mp hm
    exact hR m' hm'
  obtain ⟨handle, g, σ, hg, hσ, -⟩ := ((solves_iff hreach hr hR').mpr hT).feasible
  obtain ⟨-, -, -, hs⟩ := C51_generate "" (fun _ => "failed") asserts calls _ hrun handle
    (.other 0) σ hr.size _ rfl
  obtain ⟨samples, e, -⟩ := hs hr.counts (by simp [Exit.toInt])
  refine ⟨samples, ⟨asserts, b, _, _, handle, _, σ, hrun, rfl, e, fun g' hg' => ?_⟩, hr.size, hd, hR⟩
  rw [hg] at hg'
  cases hg'
  exact hσ

/-- The demonstration robot, from Rust. -/
noncomputable def rustRobot : RustDrivetrain ℝ :=
  ⟨4, 1, [⟨1, 1, 1, 2, 2⟩, ⟨1, -1, 1, 2, 2⟩, ⟨-1, 1, 1, 2, 2⟩, ⟨-1, -1, 1, 2, 2⟩]⟩

theorem rustRobot_radius : ∀ m ∈ rustRobot.modules, m.wheel_radius ≠ 0 := by
  intro m hm
  simp only [rustRobot, List.mem_cons, List.not_mem_nil, or_false] at hm
  rcases hm with rfl | rfl | rfl | rfl <;> norm_num

/-- C71, non-vacuity: the demonstration path is generated. -/
theorem demo_generated : ∃ samples, Generated demoCalls rustRobot [1] samples := by
  have := generated_of_obeys demo_calls rustRobot ⟨[], _, rfl, by simp⟩ rustRobot_radius
    demo_ready _ demo_obeys
  rwa [demo_table.2.1] at this

/-- C71, non-vacuity: what the theorems say of it. -/
example : ∃ samples s s', Generated demoCalls rustRobot [1] samples ∧
    samples = [s, s'] ∧ s.x = 0 ∧ s'.x = 1 ∧ (s'.timestamp - s.timestamp) * s'.velocity_x = 1 ∧
    s'.velocity_x ^ 2 + s'.velocity_y ^ 2 ≤ 4 := by
  obtain ⟨samples, h⟩ := demo_generated
  obtain ⟨hlen, -, hmot⟩ := C71_motion h
  match samples, hlen with
  | [s, s'], _ =>
    have hp := (C71_waypoint h 0 (by simp) (by norm_num) s rfl).1 0 0 0 (by simp [demoCalls])
    have hp' := (C71_waypoint h 1 (by simp) (by norm_num) s' rfl).1 1 0 0 (by simp [demoCalls])
    have hv := (C71_segment h 0 1 (by simp) (by norm_num) (by norm_num) 1 (by simp) (by simp) s'
      rfl).2.1 2 (by simp [demoCalls])
    have hm := (hmot 0 s s' rfl rfl).2.1
    refine ⟨_, s, s', h, rfl, hp.1, hp'.1, ?_, by linarith⟩
    rw [← hm, hp.1, hp'.1]
    norm_num

/-- The demonstration path with bumpers and a circle far away. -/
noncomputable def circleCalls : List (RustCall ℝ) :=
  (demoCalls ++ [.set_bumpers 1 1]) ++ .sgmt_circle_obstacle 0 1 0 10 1 :: []

theorem circle_keepOuts (st : State) (h0 : st.heading = 1) (h1 : st.pos.im = 0) :
    ∀ k ∈ keepOuts ⟨1, [⟨0, 10⟩]⟩ ⟨1 / 100, rectangle (1 : ℝ) 1⟩, Meaning k st := by
  have hrect := C53_rectangle 1 1
  have corner : ∀ q ∈ rectangle (1 : ℝ) 1, (st.onRobot q).im ≤ 1 / 2 := by
    intro q hq
    rw [hrect] at hq
    simp only [List.mem_cons, List.not_mem_nil, or_false] at hq
    rcases hq with rfl | rfl | rfl | rfl <;> simp [State.onRobot, h0, h1, vec]
  have far : ∀ z : ℂ, z.im ≤ 1 / 2 → 2 ≤ dist z (vec ⟨0, 10⟩) := by
    intro z hz
    apply le_dist_of_im
    simp only [vec]
    rw [abs_of_nonpos (by linarith)]
    linarith
  have side : ∀ e ∈ edges (rectangle (1 : ℝ) 1), e.1 ∈ rectangle (1 : ℝ) 1 ∧
      e.2 ∈ rectangle (1 : ℝ) 1 ∧ st.onRobot e.1 ≠ st.onRobot e.2 := by
    rw [hrect]
    intro e he
    simp only [edges, List.zip_cons_cons, List.zip_nil_right, List.mem_append, List.mem_cons,
      List.not_mem_nil, or_false, List.getLast_cons_cons, List.getLast_singleton] at he
    rcases he with (rfl | rfl | rfl) | rfl <;>
      simp [State.onRobot, h0, vec, Complex.ext_iff] <;> norm_num
  intro k hk
  simp only [keepOuts, List.flatMap_cons, List.flatMap_nil, List.append_nil, edges, List.map_nil,
    List.mem_append, List.mem_map, List.mem_flatMap, List.not_mem_nil, and_false, exists_false,
    or_false] at hk
  rcases hk with ⟨e, he, rfl⟩ | ⟨q, hq, rfl⟩
  · obtain ⟨s1, s2, s3⟩ := side e he
    refine ⟨s3, fun z hz => ?_⟩
    obtain ⟨t, t0, t1, -, ht⟩ := mem_seg hz
    have c1 := corner _ s1
    have c2 := corner _ s2
    have := far z (by rw [ht]; nlinarith)
    rw [abs_of_nonneg (by norm_num)]
    nlinarith
  · have := far _ (corner q hq)
    simp only [Meaning]
    rw [abs_of_nonneg (by norm_num)]
    linarith

theorem circle_generated : ∃ samples, Generated circleCalls rustRobot [1] samples := by
  obtain ⟨h1, h2, h3, h4, h5, h6, -⟩ := demo_table
  have hrun1 : Rust.run true (demoCalls ++ [.set_bumpers 1 1]) Rust.new =
      .ok (demoBuilder.addBumpers ⟨Num.lit (1 / 100), rectangle 1 1⟩) := by
    rw [run_append true demoCalls _ _ _ demo_calls]
    rfl
  generalize hb1 : demoBuilder.addBumpers ⟨Num.lit (1 / 100), rectangle 1 1⟩ = b1 at hrun1
  have ht1 : table b1 = { table demoBuilder with bumpers := (table b1).bumpers } := by
    have : ∀ (b : Builder ℝ) o, table (b.addBumpers o) =
      { table b with bumpers := (table (b.addBumpers o)).bumpers } := fun _ _ => rfl
    rw [← hb1, ← this]
  have hbum : (table b1).bumpers = [⟨1 / 100, rectangle 1 1⟩] := by
    rw [C53_once_partial true demoCalls [] 1 1 b1 hrun1 (by simp [demoCalls]) (by simp)]
    simp [Num.lit]
  have hreach1 : Reachable b1 := ⟨_, _, rust_reachable hrun1⟩
  have hbum' : b1.bumpers = [⟨1 / 100, rectangle 1 1⟩] := hbum
  obtain ⟨b2, e2, t2⟩ := (C26_partial true b1 hreach1 ⟨1, [⟨0, 10⟩]⟩ (by simp) (by simp)
    (by rw [hbum']; simp [rectangle]) (by simp) (by rw [hbum']; simp)
    (by rw [hbum']; simp [Dbl.le, Num.lit]; norm_num)).2 0 1 (by norm_num) (by norm_num)
  have hrun2 : Rust.run true circleCalls Rust.new = .ok b2 := by
    rw [circleCalls, run_append true _ _ _ _ hrun1, C51_history]
    have he : (Op.sgmtObstacle 0 1 ⟨1, [⟨0, 10⟩]⟩).exec true b1 = (b2, none) := e2
    refine ⟨by simp [BadArgument, mustBeNonneg], ?_, ?_⟩
    · simp [counterpart, Completes, he]
    · simp [counterpart, run, he]
  rw [hbum, List.flatMap_cons, List.flatMap_nil, List.append_nil] at t2
  generalize hk : keepOuts ⟨1, [⟨0, 10⟩]⟩ ⟨1 / 100, rectangle (1 : ℝ) 1⟩ = ks at t2
  have hne : ks ≠ [] := by rw [← hk]; simp [keepOuts, edges, rectangle]
  rw [PathTable.requireAllAlong, if_neg hne] at t2
  have c2 : (table b2).counts = [1] := by
    rw [t2, PathTable.reach, ht1]; simp [h1, h2]
  have w2 : (table b2).waypoints = 2 := by
    rw [t2, PathTable.reach, ht1]; simp [h1]
  have d2 : (table b2).drivetrain = some (drivetrainOf rustRobot) := by
    rw [t2, PathTable.reach, ht1]; exact h3
  have i0 : (table b2).instant 0 = (table demoBuilder).instant 0 ++ ks := by
    rw [t2, ht1]; simp
  have i1 : (table b2).instant 1 = (table demoBuilder).instant 1 ++ ks := by
    rw [t2, ht1]; simp
  have s0 : (table b2).continuous 0 = (table demoBuilder).continuous 0 ++ ks := by
    rw [t2, ht1]; simp
  have hks : ∀ n, ∀ k ∈ ks, Meaning k ((driveTraj 1 1).state n) := by
    intro n k hk'
    rw [← hk] at hk'
    refine circle_keepOuts _ ?_ ?_ k hk' <;> by_cases hn : n = 0 <;> simp [driveTraj, hn]
  have hT : Obeys (table b2) (drivetrainOf rustRobot) (driveTraj 1 1) := by
    have o := demo_obeys
    refine drive_obeys _ c2 1 1 (by norm_num) (by norm_num) ?_ ?_ ?_
    · rw [i0]
      intro c hc
      rcases List.mem_append.mp hc with hc | hc
      · have := o.instant 0 (by simp) c hc
        simpa [waypointSample, demoTraj] using this
      · exact hks 0 c hc
    · rw [i1]
      intro c hc
      rcases List.mem_append.mp hc with hc | hc
      · have := o.instant 1 (by rw [h2]; simp) c hc
        rw [h2] at this
        simpa [waypointSample, demoTraj] using this
      · exact hks 1 c hc
    · rw [s0]
      intro c hc
      rcases List.mem_append.mp hc with hc | hc
      · exact o.continuous 0 (by rw [h2]; simp) c hc 1 (by rw [h2]; simp [segmentSamples, waypointSample])
      · exact hks 1 c hc
  have := generated_of_obeys hrun2 rustRobot ⟨[], _, rfl, by simp⟩ rustRobot_radius
    ⟨d2, by rw [c2, w2]; simp, by rw [c2]; simp [sampleCount]⟩ _ hT
  rwa [c2] at this

/-- C71, non-vacuity: the circle is kept out of. -/
example : ∃ samples s s', Generated circleCalls rustRobot [1] samples ∧ samples = [s, s'] ∧
    ∀ z ∈ outline (sampleOnRobot s') (rectangle 1 1), 1 ≤ dist z ⟨0, 10⟩ := by
  obtain ⟨samples, h⟩ := circle_generated
  obtain ⟨hlen, -⟩ := C71_motion h
  match samples, hlen with
  | [s, s'], _ =>
    refine ⟨_, s, s', h, rfl, fun z hz => ?_⟩
    have := C71_circle _ _ 0 1 0 10 1 rfl h 0 (by simp) (by norm_num) 0 0 0
      (by simp [demoCalls]) 1 1 (by simp) (by norm_num) (by simp) (by norm_num)
      (by norm_num) 1 (by simp) (by simp) s' rfl z hz
    refine le_trans ?_ this
    rw [le_min_iff, Real.le_sqrt (by norm_num) (by norm_num)]
    norm_num

end Trajopt.Props
