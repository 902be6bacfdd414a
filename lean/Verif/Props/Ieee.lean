import Verif.Lemmas.IeeeGuess
import Verif.Props.RoundingPath
import Verif.Props.Double
import Verif.Props.Finite

/-!
# C96: programs with IEEE doubles

Overflow, signed zeros and NaN: when they do not matter, and when they do.
-/

set_option autoImplicit false

namespace Trajopt.Props

open Trajopt Spec Ieee

/-- C96: a program that passes no huge numbers has the same calls returning and leaves the same data as with
doubles that cannot overflow. -/
theorem C96_calls (asserts : Bool) (ops : List (Op Ieee)) (h : Moderate ops) :
    run asserts (ops.map (Op.mapD plain)) Builder.new = (run asserts ops Builder.new).mapD plain ∧
    ∀ before op after, ops = before ++ op :: after →
      ((op.mapD plain).exec asserts (run asserts (before.map (Op.mapD plain)) Builder.new)).2 =
        (op.exec asserts (run asserts before Builder.new)).2 := by
  have hr := faithful_plain.reads (k := 250) (by norm_num) (by norm_num)
  have hnew : ∀ o ∈ (Builder.new : Builder Ieee).bumpers, Fits 250 o.safetyDistance := by simp [Builder.new]
  refine ⟨mapD_run hr asserts h hnew, ?_⟩
  rintro before op after rfl
  have h1 := mapD_run hr asserts (ops := before) (fun o ho => h o (by simp [ho])) hnew
  change run asserts _ Builder.new = _ at h1
  rw [h1, mapD_exec hr asserts (h op (by simp)) ?_]
  · rfl
  · have key : ∀ (l : List (Op Ieee)), (∀ o ∈ l, ∀ d ∈ o.data, Fits 250 d) → ∀ b : Builder Ieee,
        (∀ o ∈ b.bumpers, Fits 250 o.safetyDistance) → ∀ o ∈ (run asserts l b).bumpers, Fits 250 o.safetyDistance := by
      intro l
      induction l with
      | nil => exact fun _ b hb => hb
      | cons op l ih =>
        intro hl b hb
        refine ih (fun o ho => hl o (List.mem_cons_of_mem _ ho)) _ fun o ho => ?_
        have h := congrArg Prod.fst (exec_extras asserts op b)
        change (op.exec asserts b).1.bumpers = _ at h
        rw [h] at ho
        cases op
        case addBumpers o' =>
          rcases List.mem_append.mp ho with ho | ho
          · exact hb o ho
          · rw [List.mem_singleton.mp ho]
            exact hl _ List.mem_cons_self _ List.mem_cons_self
        all_goals exact hb o ho
    exact key before (fun o ho => h o (by simp [ho])) _ hnew

theorem trimmed {asserts : Bool} {ops : List (Op Ieee)} (h : Moderate ops) :
    Builder.mapD (curb 251) (run asserts ops Builder.new) = run asserts ops Builder.new :=
  curb_run (k := 250) (by norm_num) (by norm_num) asserts h

theorem trimmed_path {b : Builder Ieee} (h : Builder.mapD (curb 251) b = b) : PathFits b.path := by
  have hp := congrArg (fun b : Builder Ieee => b.path.waypoints) h
  change b.path.waypoints.map (Waypoint.mapD (curb 251)) = _ at hp
  intro w hw c hc d hd
  have hw' := list_fixed.mp hp w hw
  have hc' : c.mapD (curb 251) = c := by
    rcases List.mem_append.mp hc with hc | hc
    · exact list_fixed.mp (congrArg Waypoint.waypointConstraints hw') c hc
    · exact list_fixed.mp (congrArg Waypoint.segmentConstraints hw') c hc
  exact fits_curb (by norm_num) (constraint_fixed.mp hc' d hd)

theorem trimmed_modules {b : Builder Ieee} (h : Builder.mapD (curb 251) b = b) {dr : SwerveDrivetrain Ieee}
    (hd : b.path.drivetrain = some dr) (hr : RadiiNotTiny dr) : ∀ md ∈ dr.modules, ModuleFits md := by
  have hp := congrArg (fun b : Builder Ieee => b.path.drivetrain) h
  change b.path.drivetrain.map (SwerveDrivetrain.mapD (curb 251)) = b.path.drivetrain at hp
  rw [hd] at hp
  have hp := drivetrain_fixed.mp (Option.some.inj hp)
  intro md hmd
  have hf : ∀ d ∈ [md.wheelRadius, md.wheelMaxAngularVelocity, md.wheelMaxTorque] ++ md.translation.data, Fits 251 d :=
    fun d hd => fits_curb (by norm_num) (hp d (by
      simp only [SwerveDrivetrain.data, List.mem_cons, List.mem_flatMap]
      exact .inr (.inr ⟨md, hmd, hd⟩)))
  exact ⟨hf _ (by simp [Translation2.data]), hf _ (by simp [Translation2.data]), hf _ (by simp), hf _ (by simp),
    hf _ (by simp), hr md hmd⟩

theorem trimmed_guesses {b : Builder Ieee} (h : Builder.mapD (curb 251) b = b) :
    ∀ l ∈ b.initialGuessPoints, ∀ p ∈ l, PoseFits p := by
  have hp := congrArg (fun b : Builder Ieee => b.initialGuessPoints) h
  change b.initialGuessPoints.map (·.map (Pose2.mapD (curb 251))) = _ at hp
  exact fun l hl p hp' d hd => fits_curb (by norm_num)
    (pose_fixed.mp (list_fixed.mp (list_fixed.mp hp l hl) p hp') d hd)

theorem expr_fixed {f : Ieee → Ieee} {e : Expr Ieee} (h : e.map f = e) : ∀ d ∈ e.constants, f d = d := by
  induction e with
  | const d =>
    intro x hx
    rw [List.mem_singleton.mp hx]
    exact Expr.const.inj h
  | var i => intro x hx; cases hx
  | add a b iha ihb | sub a b iha ihb | mul a b iha ihb | div a b iha ihb | atan2 a b iha ihb | hypot a b iha ihb =>
    simp only [Expr.map, Expr.add.injEq, Expr.sub.injEq, Expr.mul.injEq, Expr.div.injEq, Expr.atan2.injEq,
      Expr.hypot.injEq] at h
    intro x hx
    rcases List.mem_append.mp hx with hx | hx
    · exact iha h.1 x hx
    · exact ihb h.2 x hx
  | neg a ih | sin a ih | cos a ih | sign a ih =>
    simp only [Expr.map, Expr.neg.injEq, Expr.sin.injEq, Expr.cos.injEq, Expr.sign.injEq] at h
    exact ih h

theorem con_fixed {f : Ieee → Ieee} {c : Con Ieee} (h : c.map f = c) : ∀ d ∈ c.constants, f d = d := by
  cases c with
  | eq a b | le a b | ge a b =>
    simp only [Con.map, Con.eq.injEq, Con.le.injEq, Con.ge.injEq] at h
    intro x hx
    rcases List.mem_append.mp hx with hx | hx
    · exact expr_fixed h.1 x hx
    · exact expr_fixed h.2 x hx
  | leInf a =>
    simp only [Con.map, Con.leInf.injEq] at h
    exact expr_fixed h

/-- C96: if moreover no wheel radius is tiny, the constraints contain neither infinities nor NaN. -/
theorem C96_constants (asserts : Bool) (ops : List (Op Ieee)) (h : Moderate ops) (dr : SwerveDrivetrain Ieee)
    (hr : Ready (run asserts ops Builder.new) dr) (hradius : RadiiNotTiny dr) (handle : ℤ) :
    ∃ g, Generator.construct (run asserts ops Builder.new) handle = .ok g ∧
      ∀ c ∈ g.problem.cons, ∀ d ∈ c.constants, d.Finite := by
  obtain ⟨sol, -, -, hg⟩ := construct_closed ⟨asserts, ops, rfl⟩ hr handle
  refine ⟨_, hg, fun c hc d hd => ?_⟩
  have ht := trimmed (asserts := asserts) h
  have hm := trimmed_modules ht hr.drivetrain hradius
  have hpf := trimmed_path ht
  have key := map_allCons faithful_clip (run asserts ops Builder.new).controlIntervalCounts hpf hm
  have hd1 : SwerveDrivetrain.mapD clip dr = dr := by
    have hp := congrArg (fun b : Builder Ieee => b.path.drivetrain) ht
    change (run asserts ops Builder.new).path.drivetrain.map (SwerveDrivetrain.mapD (curb 251)) = _ at hp
    rw [show (run asserts ops Builder.new).path.drivetrain = some dr from hr.drivetrain] at hp
    refine drivetrain_fixed.mpr fun d hd => clip_of ?_
    exact (fits_curb (k := 251) (by norm_num) (drivetrain_fixed.mp (Option.some.inj hp) d hd)).1
  have hp1 : (run asserts ops Builder.new).path.mapD clip = (run asserts ops Builder.new).path := by
    have hw : (run asserts ops Builder.new).path.waypoints.map (Waypoint.mapD clip) =
        (run asserts ops Builder.new).path.waypoints := by
      refine list_fixed.mpr fun w hw => ?_
      obtain ⟨a, b⟩ := w
      simp only [Waypoint.mapD, Waypoint.mk.injEq]
      exact ⟨list_fixed.mpr fun c hc => constraint_fixed.mpr fun d hd =>
        clip_of (hpf _ hw c (List.mem_append_left _ hc) d hd).1,
        list_fixed.mpr fun c hc => constraint_fixed.mpr fun d hd =>
        clip_of (hpf _ hw c (List.mem_append_right _ hc) d hd).1⟩
    have hd2 := hr.drivetrain
    change (run asserts ops Builder.new).path.drivetrain = some dr at hd2
    rw [SwervePath.mapD, hw, hd2, Option.map_some, hd1, ← hd2]
  rw [hd1, hp1] at key
  have := con_fixed (list_fixed.mp key c hc) d hd
  rw [← this]
  exact finite_clip d

theorem ready_mapD {E : Type} [Dbl E] {f : Ieee → E} {b : Builder Ieee} {dr : SwerveDrivetrain Ieee} (hr : Ready b dr) :
    Ready (b.mapD f) (dr.mapD f) := by
  refine ⟨?_, ?_, hr.size⟩
  · change b.path.drivetrain.map (SwerveDrivetrain.mapD f) = _
    rw [show b.path.drivetrain = some dr from hr.drivetrain]
    rfl
  · change _ < (b.path.waypoints.map (Waypoint.mapD f)).length
    rw [List.length_map]
    exact hr.counts

theorem map_map_expr {D E F : Type} (f : D → E) (g : E → F) (e : Expr D) : (e.map f).map g = e.map (g ∘ f) := by
  induction e <;> simp_all [Expr.map]

theorem map_map_con {D E F : Type} (f : D → E) (g : E → F) (c : Con D) : (c.map f).map g = c.map (g ∘ f) := by
  cases c <;> simp [Con.map, map_map_expr]

/-- Both generators: with IEEE doubles, and with doubles that cannot overflow. -/
theorem construct_plain {asserts : Bool} {ops : List (Op Ieee)} (h : Moderate ops) {dr : SwerveDrivetrain Ieee}
    (hr : Ready (run asserts ops Builder.new) dr) (hradius : RadiiNotTiny dr) (handle : ℤ) :
    ∃ g g', Generator.construct (run asserts ops Builder.new) handle = .ok g ∧
      Generator.construct ((run asserts ops Builder.new).mapD plain) handle = .ok g' ∧
      Reachable ((run asserts ops Builder.new).mapD plain) ∧ g'.vars = g.vars ∧
      g'.problem.nvars = g.problem.nvars ∧ g'.problem.cons = g.problem.cons.map (Con.map plain) := by
  have hb' : Reachable ((run asserts ops Builder.new).mapD plain) := ⟨asserts, _, ((C96_calls asserts ops h).1).symm⟩
  obtain ⟨sol, -, -, hg⟩ := construct_closed ⟨asserts, ops, rfl⟩ hr handle
  obtain ⟨sol', -, -, hg'⟩ := construct_closed hb' (ready_mapD hr) handle
  have hm : (dr.mapD plain).modules.length = dr.modules.length := List.length_map ..
  have ht := trimmed (asserts := asserts) h
  refine ⟨_, _, hg, hg', hb', ?_, ?_, ?_⟩
  · simp only [closedGenerator, hm]
    rfl
  · simp only [closedGenerator, hm]
    rfl
  · exact (map_allCons faithful_plain _ (trimmed_path ht) (trimmed_modules ht hr.drivetrain hradius)).symm

/-- C96: such a program's problem admits exactly the values it admits with doubles that cannot overflow. -/
theorem C96_problem (asserts : Bool) (ops : List (Op Ieee)) (h : Moderate ops) (dr : SwerveDrivetrain Ieee)
    (hr : Ready (run asserts ops Builder.new) dr) (hradius : RadiiNotTiny dr) (handle : ℤ) :
    ∃ g g', Generator.construct (run asserts ops Builder.new) handle = .ok g ∧
      Generator.construct (run asserts (ops.map (Op.mapD plain)) Builder.new) handle = .ok g' ∧
      g'.vars = g.vars ∧ g'.problem.nvars = g.problem.nvars ∧
      ∀ σ : ℕ → ℝ, (∀ c ∈ g.problem.cons, (c.map value).Holds σ) ↔
        ∀ c ∈ g'.problem.cons, (c.map Doubles.val).Holds σ := by
  obtain ⟨g, g', hg, hg', -, hv, hn, hc⟩ := construct_plain h hr hradius handle
  refine ⟨g, g', hg, by rw [(C96_calls asserts ops h).1]; exact hg', hv, hn, fun σ => ?_⟩
  rw [hc]
  simp only [List.mem_map, forall_exists_index, and_imp, forall_apply_eq_imp_iff₂, map_map_con]
  rfl

theorem eps64 : binary64.ε ≤ 1 / 8 := by
  have : (2 : ℝ) ^ (-1075 : ℤ) ≤ 2 ^ (-53 : ℤ) := binary64.tiny
  change (2 : ℝ) ^ (-53 : ℤ) + 2 ^ (-1075 : ℤ) ≤ 1 / 8
  generalize (2 : ℝ) ^ (-1075 : ℤ) = t at *
  norm_num at this ⊢
  linarith

/-- C96: values that satisfy all constraints of such a program obey path and drivetrain up to rounding. -/
theorem C96_guaranteed (asserts : Bool) (ops : List (Op Ieee)) (h : Moderate ops) (dr : SwerveDrivetrain Ieee)
    (hr : Ready (run asserts ops Builder.new) dr) (hradius : RadiiNotTiny dr) (handle : ℤ) :
    ∃ g, Generator.construct (run asserts ops Builder.new) handle = .ok g ∧
      ∀ σ : ℕ → ℝ, (∀ c ∈ g.problem.cons, (c.map value).Holds σ) →
        ObeysLoosely (table ((run asserts ops Builder.new).mapD plain)) (dr.mapD plain) (decode g.vars σ) := by
  obtain ⟨g, g', hg, hg', hb', hv, -, hc⟩ := construct_plain h hr hradius handle
  refine ⟨g, hg, fun σ hσ => ?_⟩
  obtain ⟨g'', hg'', hob⟩ := C76_guaranteed (A := binary64) eps64 _ hb' _ (ready_mapD hr)
    (fun m hm => by
      obtain ⟨md, hmd, rfl⟩ := List.mem_map.mp hm
      intro h0
      have := hradius md hmd
      rw [show md.wheelRadius.value = 0 from h0, abs_zero] at this
      exact absurd this (not_le.mpr (by positivity))) handle
  rw [hg'] at hg''
  obtain rfl := Except.ok.inj hg''
  rw [← hv]
  refine hob σ ?_
  rw [hc]
  simp only [List.mem_map, forall_exists_index, and_imp, forall_apply_eq_imp_iff₂, map_map_con]
  exact hσ

/-- C96: and every trajectory that obeys them with that much to spare is found among such values. -/
theorem C96_enough (asserts : Bool) (ops : List (Op Ieee)) (h : Moderate ops) (dr : SwerveDrivetrain Ieee)
    (hr : Ready (run asserts ops Builder.new) dr) (hradius : RadiiNotTiny dr) (handle : ℤ) :
    ∃ g, Generator.construct (run asserts ops Builder.new) handle = .ok g ∧
      ∀ T, ObeysTightly (table ((run asserts ops Builder.new).mapD plain)) (dr.mapD plain) T →
        ∃ σ : ℕ → ℝ, (∀ c ∈ g.problem.cons, (c.map value).Holds σ) ∧
          Traj.Agree (sampleCount (table (run asserts ops Builder.new)).counts) dr.modules.length
            (table (run asserts ops Builder.new)).counts.length (decode g.vars σ) T := by
  obtain ⟨g, g', hg, hg', hb', hv, -, hc⟩ := construct_plain h hr hradius handle
  refine ⟨g, hg, fun T hT => ?_⟩
  obtain ⟨g'', hg'', hob⟩ := C76_enough (A := binary64) _ hb' _ (ready_mapD hr)
    (fun m hm => by
      obtain ⟨md, hmd, rfl⟩ := List.mem_map.mp hm
      intro h0
      have := hradius md hmd
      rw [show md.wheelRadius.value = 0 from h0, abs_zero] at this
      exact absurd this (not_le.mpr (by positivity))) handle
  rw [hg'] at hg''
  obtain rfl := Except.ok.inj hg''
  obtain ⟨σ, hσ, ha⟩ := hob T hT
  refine ⟨σ, ?_, ?_⟩
  · rw [hc] at hσ
    simp only [List.mem_map, forall_exists_index, and_imp, forall_apply_eq_imp_iff₂, map_map_con] at hσ
    exact hσ
  · rw [hv] at ha
    simpa [SwerveDrivetrain.mapD, Builder.mapD, table] using ha

/-- C96: if every segment has a control interval, solving starts from finite values. -/
theorem C96_start_partial (asserts : Bool) (ops : List (Op Ieee)) (h : Moderate ops) (dr : SwerveDrivetrain Ieee)
    (hr : Ready (run asserts ops Builder.new) dr)
    (hN : ∀ n ∈ (table (run asserts ops Builder.new)).counts, 0 < n) (handle : ℤ) :
    ∃ g, Generator.construct (run asserts ops Builder.new) handle = .ok g ∧ ∀ v, (g.problem.values v).Finite := by
  obtain ⟨sol, hs, hz, hg⟩ := construct_closed ⟨asserts, ops, rfl⟩ hr handle
  refine ⟨_, hg, fun v => ?_⟩
  have ht := trimmed (asserts := asserts) h
  generalize run asserts ops Builder.new = b at *
  have hsz : 1 + b.controlIntervalCounts.sum < 2 ^ 64 := hr.size
  have hgf := fits_guess hsz hN (trimmed_guesses ht) hs
  suffices hv : Fits 512 ((closedGenerator b.path dr b.controlIntervalCounts sol handle).problem.values v) from hv.1
  simp only [closedGenerator, guessValues]
  split
  · refine fits_comp hgf ?_ _
    rw [hz.dt]
    omega
  · refine fits_dtValues (fun x hx => ⟨hN _ (List.of_mem_zip hx).2, ?_⟩) (fun _ => fits_zero (by norm_num)) v
    have : x.2 ≤ b.controlIntervalCounts.sum := List.le_sum_of_mem (List.of_mem_zip hx).2
    omega

theorem round_over {z : Bool} {x : ℝ} (h : 2 ^ 1024 ≤ x) : round z x = inf false := by
  have h1 : (2 : ℝ) ^ 1024 ≤ rnd64 x := by
    have := rnd64_zpow_le (k := 1024) (by norm_num) (x := x) (by rw [← zpow_natCast] at h; exact_mod_cast h)
    rw [← zpow_natCast]
    exact_mod_cast this
  have h0 : (0 : ℝ) < 2 ^ 1024 := by positivity
  rw [Ieee.round, dif_neg (not_lt.mpr (h1.trans (le_abs_self _))), decide_eq_false (not_lt.mpr (h0.le.trans h))]

theorem pos_ofNat {n : ℕ} (h0 : 0 < n) (h : n < 2 ^ 64) :
    ∃ m hm, (Dbl.ofNat n : Ieee) = .fin false m hm ∧ m ≠ 0 := by
  have h1 : ((n : ℤ) : ℝ) ≠ 0 := by exact_mod_cast h0.ne'
  have h2 : ¬ ((n : ℤ) : ℝ) < 0 := by
    rw [not_lt]
    exact_mod_cast h0.le
  have hge := ofNat_ge h0 h
  have hfin := (fits_ofNat h).1.1
  change (Ieee.round false ((n : ℤ) : ℝ)).Finite at hfin
  change (2 : ℝ) ^ (-0 : ℤ) ≤ |(Ieee.round false ((n : ℤ) : ℝ)).value| at hge
  change ∃ m hm, Ieee.round false ((n : ℤ) : ℝ) = _ ∧ _
  unfold Ieee.round at hfin hge ⊢
  split at hfin
  · rename_i hlt
    rw [dif_pos hlt] at hge ⊢
    simp only [h1, if_false, decide_eq_false h2]
    refine ⟨_, ⟨abs_nonneg _, rnd64_abs _, hlt⟩, rfl, fun hz => ?_⟩
    simp only [h1, if_false, decide_eq_false h2, value, signed, Bool.false_eq_true, hz, abs_zero] at hge
    norm_num at hge
  · exact hfin.elim

/-- C96, refuted for huge coordinates: `Linspace` between numbers whose difference overflows consists of
infinities. -/
theorem C96_linspace_refuted (s e : Ieee) (hs : s.Finite) (he : e.Finite) (h : 2 ^ 1024 ≤ e.value - s.value) (n : ℕ)
    (hn : n < 2 ^ 64) : linspace s e n = List.replicate n (inf false) := by
  refine List.eq_replicate_iff.mpr ⟨by simp [linspace], fun d hd => ?_⟩
  simp only [linspace, List.mem_map, List.mem_range'_1] at hd
  obtain ⟨i, hi, rfl⟩ := hd
  have hd : e - s = inf false := by
    obtain ⟨z, hz⟩ := sub_def he hs
    rw [hz]
    exact round_over h
  obtain ⟨m, hm, em, -⟩ := pos_ofNat (n := n) (by omega) hn
  obtain ⟨k, hk, ek, hk0⟩ := pos_ofNat (n := i) (by omega) (by omega)
  obtain ⟨t, a, ha, rfl⟩ := hs.exists
  rw [hd, em, ek]
  change Ieee.add _ (Ieee.mul _ (Ieee.div _ _)) = _
  simp [Ieee.add, Ieee.mul, Ieee.div, hk0]

/-- C96, refuted for huge coordinates: a path between finite positions whose difference overflows is guessed
infinitely far away, and two intervals later solving starts from velocities that are not numbers. -/
theorem C96_start_refuted (b : Builder Ieee) (hb : Reachable b) (dr : SwerveDrivetrain Ieee) (hr : Ready b dr)
    (p q : Pose2 Ieee) (before : List (Pose2 Ieee)) (n : ℕ) (rest : List ℕ)
    (h0 : (table b).guess 0 = before ++ [p]) (h1 : (table b).guess 1 = [q]) (hN : (table b).counts = n :: rest)
    (hn : 2 ≤ n) (hp : p.x.Finite) (hq : q.x.Finite) (h : 2 ^ 1024 ≤ q.x.value - p.x.value) (handle : ℤ) :
    ∃ g x v, Generator.construct b handle = .ok g ∧ g.vars.x[1]? = some x ∧ g.problem.values x = inf false ∧
      g.vars.vx[2]? = some v ∧ g.problem.values v = nan := by
  obtain ⟨sol, hs, hz, hg⟩ := construct_closed hb hr handle
  have hsz : 1 + b.controlIntervalCounts.sum < 2 ^ 64 := hr.size
  have hc : b.controlIntervalCounts = n :: rest := hN
  have hlen : b.controlIntervalCounts.length < b.path.waypoints.length := hr.counts
  have hS : 2 < 1 + b.controlIntervalCounts.sum := by rw [hc, List.sum_cons]; omega
  have hidx : getIndex b.controlIntervalCounts (b.controlIntervalCounts.length + 1) 0 =
      .ok (1 + b.controlIntervalCounts.sum) := by
    rw [getIndex_succ _ _ _ (Nat.le_refl _) (by rw [List.take_length]; omega), List.take_length, Nat.add_zero]
  have hs' : generateLinearInitialGuess b.initialGuessPoints b.controlIntervalCounts = .ok sol := hs
  have hok := generate_ok_imp hs'
  rw [generate_eq_ok hok hidx] at hs'
  have hx := congrArg SwerveSolution.x (Except.ok.inj hs')
  dsimp only at hx
  obtain ⟨p0, ps0, e0⟩ := hok 0 (by omega)
  obtain ⟨p1, ps1, e1⟩ := hok 1 (by rw [hc, List.length_cons]; omega)
  have g0 : b.initialGuessPoints.getD 0 [] = before ++ [p] := by
    rw [← h0]
    simp [table, List.getD_eq_getElem?_getD, e0]
  have g1 : b.initialGuessPoints.getD 1 [] = [q] := by
    rw [← h1]
    simp [table, List.getD_eq_getElem?_getD, e1]
  have hlast : lastGuess b.initialGuessPoints 0 = p := by
    rw [lastGuess, g0]
    simp
  obtain ⟨more, hpieces⟩ : ∃ more, ((guessPieces b.initialGuessPoints b.controlIntervalCounts).map (·.1)).flatten =
      linspace p.x q.x n ++ more := by
    rw [guessPieces, hc, List.length_cons, List.range_succ_eq_map, List.map_cons, List.flatten_cons, g1, hlast]
    rw [List.map_append, List.flatten_append]
    exact ⟨_, congrArg (· ++ _) (by simp [segClosed, segPoint, pieceCount, guessPiece])⟩
  rw [hpieces, C96_linspace_refuted p.x q.x hp hq h n (by
    have : n ≤ (n :: rest).sum := by simp
    rw [← hc] at this
    omega)] at hx
  obtain ⟨k, rfl⟩ : ∃ k, n = k + 2 := ⟨n - 2, by omega⟩
  have x1 : sol.x.getD 1 (Num.lit 0) = inf false := by
    rw [← hx]
    rfl
  have x2 : sol.x.getD 2 (Num.lit 0) = inf false := by
    rw [← hx]
    rfl
  have hst : 10 ≤ stride dr.modules.length := by unfold stride; omega
  refine ⟨_, 1 * stride dr.modules.length + 0, 2 * stride dr.modules.length + 4, hg, ?_, ?_, ?_, ?_⟩
  · simp [closedGenerator, closedVars, show 1 < 1 + b.controlIntervalCounts.sum by omega]
  · simp only [closedGenerator]
    rw [guessValues_at (by omega), if_pos (by omega)]
    exact x1
  · simp [closedGenerator, closedVars, hS]
  · simp only [closedGenerator]
    rw [guessValues_at (by omega), if_pos (by omega)]
    simp only [guessComp, guessDiff, x1, x2]
    rfl

theorem mem_powerList {m n : ℕ} {mods : List (SwerveModule Ieee)} {md : SwerveModule Ieee} (h : md ∈ mods) (i : ℕ) :
    ∃ j, ∀ c ∈ powerCons (sampleVars m n) (forceVars m n j) md, c ∈ powerList m n mods i := by
  induction mods generalizing i with
  | nil => cases h
  | cons a mods ih =>
    rcases List.mem_cons.mp h with rfl | h
    · exact ⟨i, fun c hc => List.mem_append_left _ hc⟩
    · obtain ⟨j, hj⟩ := ih h (i + 1)
      exact ⟨j, fun c hc => List.mem_append_right _ (hj c hc)⟩

/-- C96, refuted for tiny wheels: if a wheel's torque divided by its radius overflows, the limit of its force is
infinite. -/
theorem C96_force_refuted (b : Builder Ieee) (hb : Reachable b) (dr : SwerveDrivetrain Ieee) (hr : Ready b dr)
    (md : SwerveModule Ieee) (hmd : md ∈ dr.modules) (ht : md.wheelMaxTorque.Finite) (hw : md.wheelRadius.Finite)
    (h0 : md.wheelRadius.value ≠ 0) (h : 2 ^ 1024 ≤ md.wheelMaxTorque.value / md.wheelRadius.value) (handle : ℤ) :
    ∃ g F, Generator.construct b handle = .ok g ∧ Con.le F (.const (inf false)) ∈ g.problem.cons := by
  obtain ⟨sol, -, -, hg⟩ := construct_closed hb hr handle
  have hd : md.wheelMaxTorque / md.wheelRadius = inf false := by
    obtain ⟨z, hz⟩ := div_def ht hw h0
    rw [hz]
    exact round_over h
  obtain ⟨j, hj⟩ := mem_powerList (m := dr.modules.length) (n := 0) hmd 0
  refine ⟨_, (forceVars dr.modules.length 0 j).squaredNorm, hg, ?_⟩
  have hc := hj (.le (forceVars dr.modules.length 0 j).squaredNorm (.const (inf false))) (by
    simp only [powerCons, hd]
    exact List.mem_cons_of_mem _ List.mem_cons_self)
  simp only [closedGenerator, allCons, List.mem_append, List.mem_flatMap]
  exact .inl (.inl (.inr ⟨0, by simp, List.mem_append_left _ hc⟩))

theorem finite_loop {sol : SwerveSolution Ieee} (hdt : ∀ d ∈ sol.dt, Fits 900 d) (hc : ∀ d ∈ sol.thetacos, d.Finite)
    (hs : ∀ d ∈ sol.thetasin, d.Finite) (n samp : ℕ) (ts : Ieee) (hts : ts.Finite)
    (hle : |ts.value| ≤ ((samp - 1 : ℕ) : ℝ) * 2 ^ (900 : ℤ)) (hn : samp + n ≤ 2 ^ 53)
    (samples : List (TrajSample Ieee))
    (h : trajectoryLoop sol n samp ts = .ok samples) : ∀ s ∈ samples, s.timestamp.Finite ∧ s.heading.Finite := by
  induction n generalizing samp ts samples with
  | zero =>
    obtain rfl := Except.ok.inj h
    simp
  | succ n ih =>
    have tail : ∀ ts', ts'.Finite → |ts'.value| ≤ (samp : ℝ) * 2 ^ (900 : ℤ) →
        (do
          let x ← vidx sol.x samp
          let y ← vidx sol.y samp
          let thetasin ← vidx sol.thetasin samp
          let thetacos ← vidx sol.thetacos samp
          let vx ← vidx sol.vx samp
          let vy ← vidx sol.vy samp
          let omega ← vidx sol.omega samp
          let fx ← vidx sol.moduleFX samp
          let fy ← vidx sol.moduleFY samp
          let rest ← trajectoryLoop sol n (samp + 1) ts'
          return TrajSample.mk ts' x y (Num.atan2 thetasin thetacos) vx vy omega fx fy :: rest : Res _) = .ok samples →
        ∀ s ∈ samples, s.timestamp.Finite ∧ s.heading.Finite := by
      intro ts' h1 h2 h
      simp only [Except.bind_eq_ok, vidx_eq_ok] at h
      obtain ⟨x, -, y, -, sn, hsn, cs, hcs, vx, -, vy, -, om, -, fx, -, fy, -, rest, hrest, h⟩ := h
      obtain rfl := Except.ok.inj h
      have := ih (samp + 1) ts' h1 (by simpa using h2) (by omega) rest hrest
      intro s hs'
      rcases List.mem_cons.mp hs' with rfl | hs'
      · exact ⟨h1, (fits_atan2 (hs sn (List.mem_of_getElem? hsn)) (hc cs (List.mem_of_getElem? hcs))).1⟩
      · exact this s hs'
    by_cases h0 : samp = 0
    · subst h0
      exact tail ts hts (by simpa using hle) h
    · rw [trajectoryLoop] at h
      simp only [ne_eq, h0, not_false_eq_true, if_true] at h
      rw [Except.bind_eq_ok] at h
      obtain ⟨d, hd, h⟩ := h
      rw [vidx_eq_ok] at hd
      have hd := hdt d (List.mem_of_getElem? hd)
      have hb : |ts.value + d.value| ≤ ((samp : ℤ) : ℝ) * 2 ^ (900 : ℤ) := by
        refine (abs_add_le _ _).trans ((add_le_add hle hd.2).trans (le_of_eq ?_))
        rw [Nat.cast_sub (by omega)]
        push_cast
        ring
      have hr : |rnd64 (ts.value + d.value)| ≤ ((samp : ℤ) : ℝ) * 2 ^ (900 : ℤ) := by
        have hfix := rnd64_fix' (m := (samp : ℤ)) (e := 900) (by
          rw [abs_of_nonneg (by positivity)]
          exact_mod_cast (show samp ≤ 2 ^ 53 by omega)) (by norm_num)
        rw [abs_le] at hb ⊢
        constructor
        · have := rnd64_mono hb.1
          rwa [rnd64_neg, hfix] at this
        · have := rnd64_mono hb.2
          rwa [hfix] at this
      have hlt : |rnd64 (ts.value + d.value)| < 2 ^ 1024 := by
        refine lt_top (k := 953) (by norm_num) (hr.trans ?_)
        rw [show (2 : ℝ) ^ (953 : ℤ) = 2 ^ (53 : ℤ) * 2 ^ (900 : ℤ) by rw [← zpow_add₀ (by norm_num)]; norm_num]
        gcongr
        exact_mod_cast (show samp ≤ 2 ^ 53 by omega)
      obtain ⟨z, hz⟩ := add_def hts hd.1
      refine tail (ts + d) ?_ ?_ h
      · rw [hz]
        exact finite_round hlt
      · rw [hz, value_round hlt, ← Int.cast_natCast]
        exact hr

theorem zero_small (n : ℕ) (k : ℤ) : |(Num.lit 0 : Ieee).value| ≤ (n : ℝ) * 2 ^ k := by
  have := (fits_lit (q := 0) (k := 0) (by simp) (by norm_num) (by norm_num)).2
  rw [this, Rat.cast_zero, rnd64_zero, abs_zero]
  exact mul_nonneg (Nat.cast_nonneg _) (zpow_nonneg (by norm_num) _)

/-- C96: times and headings of a trajectory are finite if time steps are at most 2^900 and there are at most
2^53 samples. -/
theorem C96_trajectory (sol : SwerveSolution Ieee) (hdt : ∀ d ∈ sol.dt, Fits 900 d)
    (hc : ∀ d ∈ sol.thetacos, d.Finite) (hs : ∀ d ∈ sol.thetasin, d.Finite) (hn : sol.x.length ≤ 2 ^ 53)
    (samples : List (TrajSample Ieee)) (h : holonomicTrajectory sol = .ok samples) :
    ∀ s ∈ samples, s.timestamp.Finite ∧ s.heading.Finite := by
  exact finite_loop hdt hc hs _ 0 _ (fits_zero (k := 0) le_rfl).1 (zero_small (0 - 1) 900) (by rw [Nat.zero_add]; exact hn) samples h

theorem fits_number {q : ℚ} (h : |(q : ℝ)| ≤ 2 ^ (20 : ℤ)) : Fits 250 (Num.lit q) :=
  (fits_lit h (by norm_num) (by norm_num)).1.mono (by norm_num)

/-- One wheel of 5 cm on a robot of 60 kg. -/
noncomputable def ieeeRobot (radius : Ieee) : SwerveDrivetrain Ieee :=
  ⟨Num.lit 60, Num.lit 6, [⟨⟨Num.lit 0, Num.lit 0⟩, radius, Num.lit 70, Num.lit 2⟩]⟩

/-- From one position to another. -/
noncomputable def ieeeProgram (radius x₀ x₁ : Ieee) : List (Op Ieee) :=
  [.setDrivetrain (ieeeRobot radius), .poseWpt 0 x₀ (Num.lit 0) (Num.lit 0), .poseWpt 1 x₁ (Num.lit 0) (Num.lit 1),
    .sgmtConstraint 0 1 (.linearVelocityMaxMagnitude (Num.lit 3)), .controlIntervalCounts [2]]

theorem ieee_ready (radius x₀ x₁ : Ieee) : Ready (run true (ieeeProgram radius x₀ x₁) Builder.new) (ieeeRobot radius) ∧
    (table (run true (ieeeProgram radius x₀ x₁) Builder.new)).counts = [2] ∧
    (table (run true (ieeeProgram radius x₀ x₁) Builder.new)).guess 0 =
      [Pose2.ofXYHeading x₀ (Num.lit 0) (Num.lit 0)] ∧
    (table (run true (ieeeProgram radius x₀ x₁) Builder.new)).guess 1 =
      [Pose2.ofXYHeading x₁ (Num.lit 0) (Num.lit 1)] := by
  have h : PathTable.AcceptsAll true PathTable.empty (ieeeProgram radius x₀ x₁) := by
    simp [ieeeProgram, PathTable.AcceptsAll, PathTable.Accepts]
  have e := (C81_history true _ h).1
  refine ⟨⟨?_, ?_, ?_⟩, ?_, ?_, ?_⟩ <;> rw [e] <;>
    simp [ieeeProgram, PathTable.afterAll, PathTable.after, PathTable.reach, PathTable.requireAt,
      PathTable.requireAlong, PathTable.guessAt, PathTable.empty, sampleCount]

theorem ieee_moderate : Moderate (ieeeProgram (Num.lit (1 / 20)) (Num.lit 0) (Num.lit 5)) := by
  simp only [Moderate, ieeeProgram, ieeeRobot, List.mem_cons, List.not_mem_nil, or_false, forall_eq_or_imp, forall_eq,
    Op.data, SwerveDrivetrain.data, Constraint.data, Translation2.data, List.flatMap_cons, List.flatMap_nil,
    List.append_nil, List.cons_append, List.nil_append]
  refine ⟨⟨?_, ?_, ?_, ?_, ?_, ?_, ?_⟩, ⟨?_, ?_, ?_⟩, ⟨?_, ?_, ?_⟩, ?_, fun d hd => hd.elim⟩ <;>
    exact fits_number (by norm_num)

theorem ieee_radius : RadiiNotTiny (ieeeRobot (Num.lit (1 / 20))) := by
  simp only [RadiiNotTiny, ieeeRobot, List.mem_cons, List.not_mem_nil, or_false, forall_eq]
  have := (fits_lit (q := 1 / 20) (k := 0) (by norm_num [abs_le]) (by norm_num) (by norm_num)).2
  rw [this]
  refine le_trans (rnd64_zpow_le (by norm_num) ?_) (le_abs_self _)
  calc (2 : ℝ) ^ (-250 : ℤ) ≤ 2 ^ (-5 : ℤ) := zpow_le_zpow_right₀ (by norm_num) (by norm_num)
    _ ≤ _ := by norm_num

/-- Everyday numbers: all constants and start values are finite. -/
example : ∃ g, Generator.construct
      (run true (ieeeProgram (Num.lit (1 / 20)) (Num.lit 0) (Num.lit 5)) Builder.new) 0 = .ok g ∧
    (∀ c ∈ g.problem.cons, ∀ d ∈ c.constants, d.Finite) ∧ ∀ v, (g.problem.values v).Finite := by
  obtain ⟨hr, hN, -⟩ := ieee_ready (Num.lit (1 / 20)) (Num.lit 0) (Num.lit 5)
  obtain ⟨g, hg, h1⟩ := C96_constants true _ ieee_moderate _ hr ieee_radius 0
  obtain ⟨g', hg', h2⟩ := C96_start_partial true _ ieee_moderate _ hr (by rw [hN]; simp) 0
  rw [hg] at hg'
  obtain rfl := Except.ok.inj hg'
  exact ⟨g, hg, h1, h2⟩

theorem top_eq : (2 : ℝ) ^ 1024 = 4 * 2 ^ 1022 := by
  have := pow_add (2 : ℝ) 1022 2
  rw [show (1022 + 2 : ℕ) = 1024 from rfl] at this
  rw [this, mul_comm]
  norm_num

/-- The double 1.5 * 2^1023. -/
theorem huge_finite : (Num.lit (3 * 2 ^ 1022) : Ieee).Finite ∧ (Num.lit (3 * 2 ^ 1022) : Ieee).value = 3 * 2 ^ 1022 := by
  have hfix : rnd64 (((3 * 2 ^ 1022 : ℚ)) : ℝ) = 3 * 2 ^ 1022 := by
    have := rnd64_fix (m := 3) (e := 1022) (by norm_num) (by norm_num)
    push_cast at this ⊢
    rw [← zpow_natCast]
    exact_mod_cast this
  have hlt : |rnd64 (((3 * 2 ^ 1022 : ℚ)) : ℝ)| < 2 ^ 1024 := by
    rw [hfix, abs_of_nonneg (by positivity), top_eq]
    have : (0 : ℝ) < 2 ^ 1022 := by positivity
    generalize (2 : ℝ) ^ 1022 = t at *
    linarith
  exact ⟨finite_round hlt, (value_round hlt).trans hfix⟩

/-- From -1.5 * 2^1023 to 1.5 * 2^1023: solving starts at infinity and with a velocity that is not a number. -/
example : ∃ g x v, Generator.construct (run true (ieeeProgram (Num.lit (1 / 20)) (-Num.lit (3 * 2 ^ 1022))
      (Num.lit (3 * 2 ^ 1022))) Builder.new) 0 = .ok g ∧
    g.problem.values x = inf false ∧ g.problem.values v = nan := by
  obtain ⟨hr, hN, h0, h1⟩ := ieee_ready (Num.lit (1 / 20)) (-Num.lit (3 * 2 ^ 1022)) (Num.lit (3 * 2 ^ 1022))
  obtain ⟨hf, hv⟩ := huge_finite
  obtain ⟨hf', hv'⟩ := finite_neg hf
  obtain ⟨g, x, v, hg, -, hx, -, hv⟩ := C96_start_refuted _ ⟨true, _, rfl⟩ _ hr _ _ [] 2 [] h0 h1 hN le_rfl
    hf' hf (by
      change (2 : ℝ) ^ 1024 ≤ (Num.lit (3 * 2 ^ 1022) : Ieee).value - (-Num.lit (3 * 2 ^ 1022) : Ieee).value
      rw [hv', hv, top_eq]
      have : (0 : ℝ) < 2 ^ 1022 := by positivity
      generalize (2 : ℝ) ^ 1022 = t at *
      linarith) 0
  exact ⟨g, x, v, hg, hx, hv⟩

/-- A wheel of radius 2^(-1060): its force is not limited. -/
example : ∃ g F, Generator.construct (run true (ieeeProgram (Num.lit (1 / 2 ^ 1060)) (Num.lit 0) (Num.lit 5))
      Builder.new) 0 = .ok g ∧ Con.le F (.const (inf false)) ∈ g.problem.cons := by
  obtain ⟨hr, -⟩ := ieee_ready (Num.lit (1 / 2 ^ 1060)) (Num.lit 0) (Num.lit 5)
  have e : rnd64 (((1 / 2 ^ 1060 : ℚ)) : ℝ) = 2 ^ (-1060 : ℤ) := by
    have := rnd64_fix (m := 1) (e := -1060) (by norm_num) (by norm_num)
    rw [Int.cast_one, one_mul] at this
    rw [← this]
    congr 1
    rw [zpow_neg]
    push_cast
    rw [one_div]
    norm_cast
  have hlt : |rnd64 (((1 / 2 ^ 1060 : ℚ)) : ℝ)| < 2 ^ 1024 := by
    rw [e]
    exact lt_top (k := -1060) (by norm_num) (le_of_eq (abs_of_pos (by positivity)))
  have hv : (Num.lit (1 / 2 ^ 1060) : Ieee).value = 2 ^ (-1060 : ℤ) := (value_round hlt).trans e
  have h2 := (fits_lit (q := 2) (k := 1) (by norm_num) (by norm_num) (by norm_num))
  have e2 : (2 : ℝ) ^ (1 : ℤ) ≤ (Num.lit 2 : Ieee).value := by
    rw [h2.2]
    exact rnd64_zpow_le (by norm_num) (by norm_num)
  refine C96_force_refuted _ ⟨true, _, rfl⟩ _ hr _ List.mem_cons_self h2.1.1 (finite_round hlt) ?_ ?_ 0
  · change (Num.lit (1 / 2 ^ 1060) : Ieee).value ≠ 0
    rw [hv]
    positivity
  · change (2 : ℝ) ^ 1024 ≤ (Num.lit 2 : Ieee).value / (Num.lit (1 / 2 ^ 1060) : Ieee).value
    rw [hv, zpow_neg, div_inv_eq_mul]
    calc (2 : ℝ) ^ 1024 ≤ 2 ^ (1 : ℤ) * 2 ^ (1060 : ℤ) := by
          rw [← zpow_add₀ (by norm_num), ← zpow_natCast]
          exact zpow_le_zpow_right₀ (by norm_num) (by norm_num)
      _ ≤ _ := by gcongr

/-- Two samples, a tenth of a second apart. -/
noncomputable def tenthApart : SwerveSolution Ieee := ⟨[Num.lit (1 / 10), Num.lit (1 / 10)], [Num.lit 0, Num.lit 1],
  [Num.lit 0, Num.lit 0], [Num.lit 1, Num.lit 1], [Num.lit 0, Num.lit 0], [Num.lit 10, Num.lit 10],
  [Num.lit 0, Num.lit 0], [Num.lit 0, Num.lit 0], [], [], [], [[], []], [[], []]⟩

example : ∃ a b : TrajSample Ieee, holonomicTrajectory tenthApart = .ok [a, b] ∧ b.timestamp.Finite := by
  have h : ∃ a b : TrajSample Ieee, holonomicTrajectory tenthApart = .ok [a, b] := ⟨_, _, rfl⟩
  obtain ⟨a, b, h⟩ := h
  refine ⟨a, b, h, (C96_trajectory tenthApart ?_ ?_ ?_ ?_ _ h b (by simp)).1⟩
  · intro d hd
    simp only [tenthApart, List.mem_cons, List.not_mem_nil, or_false, or_self] at hd
    rw [hd]
    exact (fits_lit (k := 0) (by norm_num [abs_le]) (by norm_num) (by norm_num)).1.mono (by norm_num)
  · intro d hd
    simp only [tenthApart, List.mem_cons, List.not_mem_nil, or_false, or_self] at hd
    rw [hd]
    exact finite_lit (by norm_num)
  · intro d hd
    simp only [tenthApart, List.mem_cons, List.not_mem_nil, or_false, or_self] at hd
    rw [hd]
    exact finite_lit (by norm_num)
  · norm_num [tenthApart]

end Trajopt.Props
