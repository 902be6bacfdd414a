import Verif.Model.Trajectory
import Verif.Props.Generator
import Verif.Props.InitialGuess

/-!
# C42, C43, C45, C46 Objective, start values and the trajectory built from a solution
-/

set_option autoImplicit false

namespace Trajopt.Props

open Spec Builder

section AnyScalar
variable {D : Type} [Dbl D]

/-- Every vector has an entry for every `x`, `dt` for every `x` but the first. -/
structure LongEnough (sol : SwerveSolution D) : Prop where
  dt : sol.x.length ≤ sol.dt.length + 1
  y : sol.x.length ≤ sol.y.length
  thetacos : sol.x.length ≤ sol.thetacos.length
  thetasin : sol.x.length ≤ sol.thetasin.length
  vx : sol.x.length ≤ sol.vx.length
  vy : sol.x.length ≤ sol.vy.length
  omega : sol.x.length ≤ sol.omega.length
  moduleFX : sol.x.length ≤ sol.moduleFX.length
  moduleFY : sol.x.length ≤ sol.moduleFY.length

/-- The same with entries at index `k` only. -/
def EntryAt (sol : SwerveSolution D) (k : ℕ) : Prop :=
  (k ≠ 0 → k - 1 < sol.dt.length) ∧ k < sol.x.length ∧ k < sol.y.length ∧
  k < sol.thetasin.length ∧ k < sol.thetacos.length ∧ k < sol.vx.length ∧ k < sol.vy.length ∧
  k < sol.omega.length ∧ k < sol.moduleFX.length ∧ k < sol.moduleFY.length

/-- Running time before sample `k` is processed. -/
def timeAt (dt : List D) : ℕ → D
  | 0 => Num.lit 0
  | k + 1 => timeAt dt k + dt.getD k (Num.lit 0)

/-- Sample `k` in closed form. -/
def closedSample (sol : SwerveSolution D) (k : ℕ) : TrajSample D where
  timestamp := timeAt sol.dt k
  x := sol.x.getD k (Num.lit 0)
  y := sol.y.getD k (Num.lit 0)
  heading := Num.atan2 (sol.thetasin.getD k (Num.lit 0)) (sol.thetacos.getD k (Num.lit 0))
  velocityX := sol.vx.getD k (Num.lit 0)
  velocityY := sol.vy.getD k (Num.lit 0)
  angularVelocity := sol.omega.getD k (Num.lit 0)
  moduleForcesX := sol.moduleFX.getD k []
  moduleForcesY := sol.moduleFY.getD k []

theorem vidx_getD' {α : Type} {l : List α} {n : ℕ} (h : n < l.length) (d : α) :
    vidx l n = .ok (l.getD n d) := by
  rw [vidx_ok h, getD_lt h]

theorem vidx_short {α : Type} {l : List α} {n : ℕ} (h : ¬ n < l.length) :
    vidx l n = .error .ub := by
  unfold vidx
  rw [List.getElem?_eq_none (by omega)]

/-- The loop body with the time stamp computed first. -/
theorem trajectoryLoop_succ (sol : SwerveSolution D) (n samp : ℕ) (ts : D) :
    trajectoryLoop sol (n + 1) samp ts =
      ((if samp ≠ 0 then do
          let d ← vidx sol.dt (samp - 1)
          pure (ts + d)
        else pure ts : Res D) >>= fun ts => do
      let x ← vidx sol.x samp
      let y ← vidx sol.y samp
      let thetasin ← vidx sol.thetasin samp
      let thetacos ← vidx sol.thetacos samp
      let vx ← vidx sol.vx samp
      let vy ← vidx sol.vy samp
      let omega ← vidx sol.omega samp
      let fx ← vidx sol.moduleFX samp
      let fy ← vidx sol.moduleFY samp
      let rest ← trajectoryLoop sol n (samp + 1) ts
      pure ({ timestamp := ts, x := x, y := y, heading := Num.atan2 thetasin thetacos,
              velocityX := vx, velocityY := vy, angularVelocity := omega,
              moduleForcesX := fx, moduleForcesY := fy } :: rest)) := by
  rw [trajectoryLoop]
  by_cases hs : samp ≠ 0
  · rw [if_pos hs, if_pos hs, bind_assoc]
  · rw [if_neg hs, if_neg hs]

theorem trajectoryLoop_ok (sol : SwerveSolution D) (n : ℕ) : ∀ samp,
    (∀ k, samp ≤ k → k < samp + n → EntryAt sol k) →
    trajectoryLoop sol n samp (timeAt sol.dt (samp - 1)) =
      .ok ((List.range' samp n).map (closedSample sol)) := by
  induction n with
  | zero => intro samp _; rfl
  | succ n ih =>
    intro samp h
    obtain ⟨h0, h1, h2, h3, h4, h5, h6, h7, h8, h9⟩ := h samp (by omega) (by omega)
    have ih' := ih (samp + 1) fun k hk hk' => h k (by omega) (by omega)
    rw [Nat.add_sub_cancel] at ih'
    have hts : (if samp ≠ 0 then do
        let d ← vidx sol.dt (samp - 1)
        pure (timeAt sol.dt (samp - 1) + d)
      else pure (timeAt sol.dt (samp - 1)) : Res D) = .ok (timeAt sol.dt samp) := by
      cases samp with
      | zero => rfl
      | succ k =>
        have hk := h0 (by omega)
        rw [Nat.add_sub_cancel] at hk
        rw [if_pos (by omega), Nat.add_sub_cancel, vidx_getD' hk (Num.lit 0)]
        rfl
    rw [trajectoryLoop_succ, hts, Except.ok_bind, vidx_getD' h1 (Num.lit 0), Except.ok_bind,
      vidx_getD' h2 (Num.lit 0), Except.ok_bind, vidx_getD' h3 (Num.lit 0), Except.ok_bind,
      vidx_getD' h4 (Num.lit 0), Except.ok_bind, vidx_getD' h5 (Num.lit 0), Except.ok_bind,
      vidx_getD' h6 (Num.lit 0), Except.ok_bind, vidx_getD' h7 (Num.lit 0), Except.ok_bind,
      vidx_getD' h8 [], Except.ok_bind, vidx_getD' h9 [], Except.ok_bind, ih', Except.ok_bind]
    rfl

theorem bind_ub {α β : Type} (f : α → Res β) : ((.error .ub : Res α) >>= f) = .error .ub := rfl

theorem vidx_or {α : Type} (l : List α) (n : ℕ) :
    vidx l n = .error .ub ∧ ¬ n < l.length ∨ n < l.length ∧ ∃ a, vidx l n = .ok a := by
  by_cases h : n < l.length
  · exact .inr ⟨h, _, vidx_ok h⟩
  · exact .inl ⟨vidx_short h, h⟩

theorem trajectoryLoop_ub (sol : SwerveSolution D) (n : ℕ) : ∀ samp ts,
    trajectoryLoop sol n samp ts = .error .ub ∨ ∀ k, samp ≤ k → k < samp + n → EntryAt sol k := by
  induction n with
  | zero => intro samp ts; right; omega
  | succ n ih =>
    intro samp ts
    rw [trajectoryLoop_succ]
    have hts : ((if samp ≠ 0 then do
        let d ← vidx sol.dt (samp - 1)
        pure (ts + d)
      else pure ts : Res D) = .error .ub) ∨
      ((samp ≠ 0 → samp - 1 < sol.dt.length) ∧ ∃ t, (if samp ≠ 0 then do
        let d ← vidx sol.dt (samp - 1)
        pure (ts + d)
      else pure ts : Res D) = .ok t) := by
      by_cases hs : samp = 0
      · right
        rw [if_neg (by simpa using hs)]
        exact ⟨fun h => absurd hs h, _, rfl⟩
      · rw [if_pos hs]
        rcases vidx_or sol.dt (samp - 1) with ⟨e, -⟩ | ⟨h, d, e⟩
        · left; rw [e]; rfl
        · right; rw [e]; exact ⟨fun _ => h, _, rfl⟩
    rcases hts with e | ⟨h0, t, e⟩
    · left; rw [e]; rfl
    rw [e, Except.ok_bind]
    rcases vidx_or sol.x samp with ⟨e, -⟩ | ⟨h1, _, e⟩
    · left; rw [e]; rfl
    rw [e, Except.ok_bind]
    rcases vidx_or sol.y samp with ⟨e, -⟩ | ⟨h2, _, e⟩
    · left; rw [e]; rfl
    rw [e, Except.ok_bind]
    rcases vidx_or sol.thetasin samp with ⟨e, -⟩ | ⟨h3, _, e⟩
    · left; rw [e]; rfl
    rw [e, Except.ok_bind]
    rcases vidx_or sol.thetacos samp with ⟨e, -⟩ | ⟨h4, _, e⟩
    · left; rw [e]; rfl
    rw [e, Except.ok_bind]
    rcases vidx_or sol.vx samp with ⟨e, -⟩ | ⟨h5, _, e⟩
    · left; rw [e]; rfl
    rw [e, Except.ok_bind]
    rcases vidx_or sol.vy samp with ⟨e, -⟩ | ⟨h6, _, e⟩
    · left; rw [e]; rfl
    rw [e, Except.ok_bind]
    rcases vidx_or sol.omega samp with ⟨e, -⟩ | ⟨h7, _, e⟩
    · left; rw [e]; rfl
    rw [e, Except.ok_bind]
    rcases vidx_or sol.moduleFX samp with ⟨e, -⟩ | ⟨h8, _, e⟩
    · left; rw [e]; rfl
    rw [e, Except.ok_bind]
    rcases vidx_or sol.moduleFY samp with ⟨e, -⟩ | ⟨h9, _, e⟩
    · left; rw [e]; rfl
    rw [e, Except.ok_bind]
    rcases ih (samp + 1) t with e | ih
    · left; rw [e]; rfl
    right
    intro k hk hk'
    by_cases hks : k = samp
    · subst hks
      exact ⟨h0, h1, h2, h3, h4, h5, h6, h7, h8, h9⟩
    · exact ih k (by omega) (by omega)

omit [Dbl D] in
theorem longEnough_iff (sol : SwerveSolution D) :
    LongEnough sol ↔ ∀ k, 0 ≤ k → k < 0 + sol.x.length → EntryAt sol k := by
  constructor
  · rintro ⟨h1, h2, h3, h4, h5, h6, h7, h8, h9⟩ k - hk
    unfold EntryAt
    omega
  · intro h
    by_cases hx : sol.x.length = 0
    · constructor <;> omega
    · obtain ⟨h0, h1, h2, h3, h4, h5, h6, h7, h8, h9⟩ := h (sol.x.length - 1) (by omega) (by omega)
      constructor <;> omega

theorem trajectory_closed {sol : SwerveSolution D} (h : LongEnough sol) :
    holonomicTrajectory sol = .ok ((List.range sol.x.length).map (closedSample sol)) := by
  rw [holonomicTrajectory, List.range_eq_range']
  exact trajectoryLoop_ok sol _ 0 ((longEnough_iff sol).mp h)

/-- C46: building a trajectory is defined exactly if every vector is long enough; otherwise the
code reads beyond the end of a vector. -/
theorem C46_defined (sol : SwerveSolution D) :
    ((∃ samples, holonomicTrajectory sol = .ok samples) ↔ LongEnough sol) ∧
    (holonomicTrajectory sol = .error .ub ↔ ¬ LongEnough sol) := by
  have h1 : LongEnough sol → ∃ samples, holonomicTrajectory sol = .ok samples :=
    fun h => ⟨_, trajectory_closed h⟩
  have h2 : ¬ LongEnough sol → holonomicTrajectory sol = .error .ub := by
    intro h
    rcases trajectoryLoop_ub sol sol.x.length 0 (Num.lit 0) with e | h'
    · exact e
    · exact absurd ((longEnough_iff sol).mpr h') h
  refine ⟨⟨?_, h1⟩, ⟨?_, h2⟩⟩
  · rintro ⟨l, e⟩
    by_contra h
    rw [h2 h] at e
    cases e
  · intro e h
    obtain ⟨l, e'⟩ := h1 h
    rw [e'] at e
    cases e

/-- C46: in particular it is undefined for every initial guess. -/
theorem C46_initial_guess (pts : List (List (Pose2 D))) (N : List ℕ) (hN : sampleCount N < 2 ^ 64)
    (sol : SwerveSolution D) (h : generateLinearInitialGuess pts N = .ok sol) :
    holonomicTrajectory sol = .error .ub := by
  rw [(C46_defined sol).2]
  intro hl
  obtain ⟨-, -, ⟨p0, ps, -, hx, -⟩, hvx, -⟩ := generate_ok_elim h hN
  have := hl.vx
  rw [hx, hvx] at this
  simp at this

/-- C45: one sample per `x`; the first at time 0 and each at the previous one's time plus `dt`; all
other fields are the solution's, the heading being `atan2` of the heading's sine and cosine. -/
theorem C45_fields (sol : SwerveSolution D) (samples : List (TrajSample D))
    (h : holonomicTrajectory sol = .ok samples) :
    samples.length = sol.x.length ∧
    (∀ s : TrajSample D, samples[0]? = some s → s.timestamp = Num.lit 0) ∧
    (∀ (k : ℕ) (s s' : TrajSample D), samples[k]? = some s → samples[k + 1]? = some s' →
      ∃ d, sol.dt[k]? = some d ∧ s'.timestamp = s.timestamp + d) ∧
    (∀ (k : ℕ) (s : TrajSample D), samples[k]? = some s →
      sol.x[k]? = some s.x ∧ sol.y[k]? = some s.y ∧ sol.vx[k]? = some s.velocityX ∧
      sol.vy[k]? = some s.velocityY ∧ sol.omega[k]? = some s.angularVelocity ∧
      sol.moduleFX[k]? = some s.moduleForcesX ∧ sol.moduleFY[k]? = some s.moduleForcesY ∧
      ∃ c n, sol.thetacos[k]? = some c ∧ sol.thetasin[k]? = some n ∧ s.heading = Num.atan2 n c) := by
  have hl := (C46_defined sol).1.mp ⟨_, h⟩
  rw [trajectory_closed hl] at h
  have h := Except.ok.inj h
  subst h
  have hget : ∀ k s, ((List.range sol.x.length).map (closedSample sol))[k]? = some s →
      k < sol.x.length ∧ s = closedSample sol k := by
    intro k s hk
    rw [List.getElem?_map] at hk
    by_cases hlt : k < sol.x.length
    · rw [List.getElem?_range hlt] at hk
      exact ⟨hlt, (Option.some.inj hk).symm⟩
    · rw [List.getElem?_eq_none (by simpa using hlt)] at hk
      cases hk
  have some_getD : ∀ {α : Type} {l : List α} {k : ℕ} (d : α), k < l.length →
      l[k]? = some (l.getD k d) := by
    intro α l k d hk
    rw [getD_lt hk, List.getElem?_eq_getElem hk]
  obtain ⟨h1, h2, h3, h4, h5, h6, h7, h8, h9⟩ := hl
  refine ⟨by simp, ?_, ?_, ?_⟩
  · intro s hs
    obtain ⟨-, rfl⟩ := hget 0 s hs
    rfl
  · intro k s s' hs hs'
    obtain ⟨-, rfl⟩ := hget k s hs
    obtain ⟨hk, rfl⟩ := hget (k + 1) s' hs'
    exact ⟨_, some_getD (Num.lit 0) (by omega), rfl⟩
  · intro k s hs
    obtain ⟨hk, rfl⟩ := hget k s hs
    exact ⟨some_getD _ hk, some_getD _ (by omega), some_getD _ (by omega), some_getD _ (by omega),
      some_getD _ (by omega), some_getD _ (by omega), some_getD _ (by omega),
      _, _, some_getD _ (by omega), some_getD _ (by omega), rfl⟩

end AnyScalar

/-! ### In real arithmetic -/

theorem timeAt_real (dt : List ℝ) (k : ℕ) : timeAt dt k = (dt.take k).sum := by
  induction k with
  | zero => simp [timeAt]
  | succ k ih =>
    rw [timeAt, ih]
    by_cases h : k < dt.length
    · rw [getD_lt h, List.take_succ_eq_append_getElem h, List.sum_append]
      simp
    · rw [List.take_of_length_le (by omega), List.take_of_length_le (by omega),
        List.getD_eq_getElem?_getD, List.getElem?_eq_none (by omega)]
      simp

/-- C45: timestamps are partial sums of `dt`, nondecreasing if no `dt` is negative; headings lie in
`(-π, π]` and reproduce unit headings. -/
theorem C45_timestamps (sol : SwerveSolution ℝ) (samples : List (TrajSample ℝ))
    (h : holonomicTrajectory sol = .ok samples) :
    (∀ (k : ℕ) (s : TrajSample ℝ), samples[k]? = some s → s.timestamp = (sol.dt.take k).sum) ∧
    ((∀ d ∈ sol.dt, 0 ≤ d) → ∀ (j k : ℕ) (s s' : TrajSample ℝ), j ≤ k → samples[j]? = some s → samples[k]? = some s' →
      s.timestamp ≤ s'.timestamp) ∧
    (∀ s : TrajSample ℝ, s ∈ samples → -Real.pi < s.heading ∧ s.heading ≤ Real.pi) ∧
    (∀ (k : ℕ) (s : TrajSample ℝ) (c n : ℝ), samples[k]? = some s → sol.thetacos[k]? = some c → sol.thetasin[k]? = some n →
      c ^ 2 + n ^ 2 = 1 → Real.cos s.heading = c ∧ Real.sin s.heading = n) := by
  obtain ⟨hlen, hzero, hstep, hfields⟩ := C45_fields sol samples h
  have hts : ∀ (k : ℕ) (s : TrajSample ℝ), samples[k]? = some s → s.timestamp = (sol.dt.take k).sum := by
    have hl := (C46_defined sol).1.mp ⟨_, h⟩
    rw [trajectory_closed hl] at h
    have h := Except.ok.inj h
    subst h
    intro k s hk
    rw [List.getElem?_map] at hk
    by_cases hlt : k < sol.x.length
    · rw [List.getElem?_range hlt] at hk
      obtain rfl := Option.some.inj hk
      exact timeAt_real _ _
    · rw [List.getElem?_eq_none (by simpa using hlt)] at hk
      cases hk
  refine ⟨hts, ?_, ?_, ?_⟩
  · intro hdt j k s s' hjk hs hs'
    rw [hts j s hs, hts k s' hs']
    obtain ⟨d, rfl⟩ := Nat.exists_eq_add_of_le hjk
    rw [List.take_add, List.sum_append]
    have : 0 ≤ ((sol.dt.drop j).take d).sum :=
      List.sum_nonneg fun x hx => hdt x (List.mem_of_mem_drop (List.mem_of_mem_take hx))
    linarith
  · intro s hs
    obtain ⟨k, hk⟩ := List.mem_iff_getElem?.mp hs
    obtain ⟨-, -, -, -, -, -, -, c, n, -, -, e⟩ := hfields k s hk
    rw [e]
    exact ⟨Complex.neg_pi_lt_arg _, Complex.arg_le_pi _⟩
  · intro k s c n hk hc hn hu
    obtain ⟨-, -, -, -, -, -, -, c', n', hc', hn', e⟩ := hfields k s hk
    rw [hc] at hc'
    rw [hn] at hn'
    obtain rfl := Option.some.inj hc'
    obtain rfl := Option.some.inj hn'
    have hnorm : ‖(⟨c, n⟩ : ℂ)‖ = 1 := by
      rw [← sq_eq_sq₀ (norm_nonneg _) (by norm_num), ← Complex.normSq_eq_norm_sq, Complex.normSq_mk]
      linarith
    have hne : (⟨c, n⟩ : ℂ) ≠ 0 := by
      intro h0
      rw [h0] at hnorm
      simp at hnorm
    rw [e]
    constructor
    · rw [real_atan2, Complex.cos_arg hne, hnorm]; simp
    · rw [real_atan2, Complex.sin_arg, hnorm]; simp

/-- A solution with two samples, one second apart. -/
def twoSamples : SwerveSolution ℝ where
  dt := [1]
  x := [0, 1]
  y := [0, 0]
  thetacos := [1, 0]
  thetasin := [0, 1]
  vx := [0, 1]
  vy := [0, 0]
  omega := [0, 0]
  ax := [0, 1]
  ay := [0, 0]
  alpha := [0, 0]
  moduleFX := [[], []]
  moduleFY := [[], []]

/-- The hypotheses of C45 hold for it. -/
example : ∃ samples, holonomicTrajectory twoSamples = .ok samples ∧
    ∃ s, samples[1]? = some s ∧ s.timestamp = 1 ∧ Real.cos s.heading = 0 := by
  have hl : LongEnough twoSamples := by constructor <;> simp [twoSamples]
  obtain ⟨samples, h⟩ := (C46_defined twoSamples).1.mpr hl
  obtain ⟨hlen, -⟩ := C45_fields twoSamples samples h
  have h1 : 1 < samples.length := by rw [hlen]; simp [twoSamples]
  obtain ⟨ht, -, -, hh⟩ := C45_timestamps twoSamples samples h
  refine ⟨samples, h, samples[1], by simp [h1], ?_, ?_⟩
  · rw [ht 1 _ (by simp [h1])]; simp [twoSamples]
  · exact (hh 1 samples[1] 0 1 (by simp [h1]) rfl rfl (by norm_num)).1

/-! ### C42 The objective -/

theorem totalTimeExpr_eval (σ : ℕ → ℝ) (dts : List (ℕ × ℕ)) (acc : Expr ℝ) :
    (totalTimeExpr dts acc).eval σ =
      acc.eval σ + (dts.map fun x => σ x.1 * (toInt32 x.2 : ℝ)).sum := by
  induction dts generalizing acc with
  | nil => simp [totalTimeExpr]
  | cons x dts ih =>
    rw [totalTimeExpr, List.foldl_cons]
    change (totalTimeExpr dts _).eval σ = _
    rw [ih, List.map_cons, List.sum_cons, ← add_assoc]
    rfl

/-- The objective, whatever the counts: the count of each segment is converted to `int`. -/
theorem objective_closed (b : Builder ℝ) (hb : Reachable b) (dr : SwerveDrivetrain ℝ)
    (hr : Ready b dr) (handle : ℤ) (g : Generator ℝ) (hg : Generator.construct b handle = .ok g) :
    ∃ e, g.problem.cost = some e ∧ ∀ σ, e.eval σ =
      ∑ s : Fin (table b).counts.length, (toInt32 (table b).counts[s] : ℝ) * (decode g.vars σ).dt s := by
  obtain ⟨sol, -, -, hc⟩ := construct_closed hb hr handle
  rw [hc] at hg
  obtain rfl := Except.ok.inj hg
  refine ⟨_, rfl, fun σ => ?_⟩
  rw [totalTimeExpr_eval]
  have hz : ∀ (N : List ℕ) (a : ℕ), (((List.range' a N.length).zip N).map
      fun x => σ x.1 * (toInt32 x.2 : ℝ)) =
      List.ofFn fun s : Fin N.length => (toInt32 N[s] : ℝ) * σ (a + s) := by
    intro N a
    apply List.ext_getElem (by simp)
    intro i h1 h2
    simp [mul_comm]
  rw [hz, List.sum_ofFn]
  have h0 : (Num.lit 0 : Expr ℝ).eval σ = 0 := by simp [Num.lit]
  rw [h0, zero_add]
  refine Finset.sum_congr rfl fun s _ => ?_
  simp [decode, closedGenerator, closedVars, table]

theorem toInt32_small {n : ℕ} (h : n < 2 ^ 31) : toInt32 n = n := by
  unfold toInt32
  rw [if_pos (by omega)]
  omega

/-- C42: with counts below 2^31 the objective is the duration, which is the timestamp of the last
sample of the trajectory built from the solution. -/
theorem C42_objective (b : Builder ℝ) (hb : Reachable b) (dr : SwerveDrivetrain ℝ)
    (hr : Ready b dr) (hN : ∀ n ∈ (table b).counts, n < 2 ^ 31)
    (handle : ℤ) (g : Generator ℝ) (hg : Generator.construct b handle = .ok g) :
    ∃ e, g.problem.cost = some e ∧ ∀ σ,
      e.eval σ = ∑ s : Fin (table b).counts.length,
        ((table b).counts[s] : ℝ) * (decode g.vars σ).dt s ∧
      ∃ sol samples last,
        ({ g with problem := { g.problem with values := σ } }).constructSwerveSolution = .ok sol ∧
        holonomicTrajectory sol = .ok samples ∧ samples.getLast? = some last ∧
        last.timestamp = e.eval σ := by
  obtain ⟨e, he, hev⟩ := objective_closed b hb dr hr handle g hg
  refine ⟨e, he, fun σ => ?_⟩
  have hsum : e.eval σ = ∑ s : Fin (table b).counts.length,
      ((table b).counts[s] : ℝ) * (decode g.vars σ).dt s := by
    rw [hev]
    refine Finset.sum_congr rfl fun s _ => ?_
    have : toInt32 ((table b).counts[s]) = ((table b).counts[s] : ℕ) :=
      toInt32_small (hN _ (List.getElem_mem _))
    rw [this]
    simp
  refine ⟨hsum, ?_⟩
  obtain ⟨sol, hsol, hdtlen, -, -, -, -, -, -, -, -, -, -, -, -, hlens, hforces, hdt⟩ :=
    C44_solution b hb dr hr handle g hg σ
  simp only [List.mem_cons, List.not_mem_nil, or_false, forall_eq_or_imp, forall_eq] at hlens hforces
  obtain ⟨l1, l2, l3, l4, l5, l6, l7, -⟩ := hlens
  obtain ⟨⟨l8, -⟩, ⟨l9, -⟩⟩ := hforces
  have hlong : LongEnough sol := by
    constructor <;> simp only [sampleCount] at * <;> omega
  obtain ⟨samples, hs⟩ := (C46_defined sol).1.mpr hlong
  have hlen := (C45_fields sol samples hs).1
  have hts := (C45_timestamps sol samples hs).1
  have hpos : 0 < samples.length := by rw [hlen, l1]; simp [sampleCount]
  have hlast : samples.getLast? = some (samples[samples.length - 1]'(by omega)) := by
    rw [List.getLast?_eq_getElem?, List.getElem?_eq_getElem (by omega)]
  refine ⟨sol, samples, _, hsol, hs, hlast, ?_⟩
  rw [hts (samples.length - 1) _ (by rw [List.getElem?_eq_getElem (by omega)]), hlen, l1]
  rw [show sampleCount (table b).counts - 1 = sol.dt.length by
    rw [hdtlen]; simp only [sampleCount]; omega, List.take_length, hsum]
  -- the dt vector is each segment's dt repeated
  have hvec : ∀ K ≤ (table b).counts.length, (sol.dt.take (waypointSample (table b).counts K)).sum =
      ∑ s ∈ Finset.range K, ((table b).counts.getD s 0 : ℝ) * (decode g.vars σ).dt s := by
    intro K hK
    induction K with
    | zero => simp [waypointSample]
    | succ K ih =>
      have hw : waypointSample (table b).counts (K + 1) =
          waypointSample (table b).counts K + (table b).counts.getD K 0 := by
        rw [waypointSample, waypointSample, sum_take_succ _ (by omega), getD_lt (by omega)]
      rw [Finset.sum_range_succ, ← ih (by omega), hw, List.take_add, List.sum_append]
      congr 1
      have hle := sum_take_le (table b).counts (K + 1)
      have : (sol.dt.drop (waypointSample (table b).counts K)).take ((table b).counts.getD K 0) =
          List.replicate ((table b).counts.getD K 0) ((decode g.vars σ).dt K) := by
        rw [List.eq_replicate_iff]
        have hle' : waypointSample (table b).counts (K + 1) ≤ (table b).counts.sum := hle
        rw [hw] at hle'
        constructor
        · rw [List.length_take, List.length_drop, hdtlen]; omega
        · intro d hd
          obtain ⟨i, hi, rfl⟩ := List.mem_iff_getElem.mp hd
          rw [List.length_take, List.length_drop, hdtlen] at hi
          obtain ⟨v, hv1, hv2⟩ := hdt K (by omega) (waypointSample (table b).counts K + 1 + i) (by
            rw [segmentSamples, Finset.mem_Ioc, hw]; omega)
          rw [show waypointSample (table b).counts K + 1 + i - 1 =
            waypointSample (table b).counts K + i by omega] at hv2
          rw [List.getElem_take, List.getElem_drop]
          have hd' : (decode g.vars σ).dt K = σ v := by
            simp [decode, List.getD_eq_getElem?_getD, hv1]
          rw [hd']
          obtain ⟨_, hv3⟩ := List.getElem?_eq_some_iff.mp hv2
          exact hv3
      rw [this, List.sum_replicate, nsmul_eq_mul]
  have := hvec (table b).counts.length le_rfl
  rw [show waypointSample (table b).counts (table b).counts.length = sol.dt.length by
    rw [hdtlen, waypointSample, List.take_length], List.take_length] at this
  rw [this, ← Fin.sum_univ_eq_sum_range fun s =>
    ((table b).counts.getD s 0 : ℝ) * (decode g.vars σ).dt s]
  refine Finset.sum_congr rfl fun s _ => ?_
  rw [getD_lt s.2]
  rfl

/-- C42 needs the bound on the counts: 2^31 control intervals count as -2^31, so that the solver
would maximise the duration. -/
theorem C42_overflow (b : Builder ℝ) (hb : Reachable b) (dr : SwerveDrivetrain ℝ)
    (hr : Ready b dr) (hN : (table b).counts = [2 ^ 31])
    (handle : ℤ) (g : Generator ℝ) (hg : Generator.construct b handle = .ok g) :
    ∃ e, g.problem.cost = some e ∧ ∀ σ, e.eval σ = -(2 ^ 31) * (decode g.vars σ).dt 0 := by
  obtain ⟨e, he, hev⟩ := objective_closed b hb dr hr handle g hg
  refine ⟨e, he, fun σ => ?_⟩
  rw [hev]
  have hlen : (table b).counts.length = 1 := by rw [hN]; rfl
  have h32 : toInt32 (2 ^ 31) = -(2 ^ 31) := by unfold toInt32; norm_num
  rw [Finset.sum_eq_single (⟨0, by omega⟩ : Fin (table b).counts.length)]
  · have : (table b).counts[0]'(by omega) = 2 ^ 31 := by simp [hN]
    change (toInt32 ((table b).counts[0]'(by omega)) : ℝ) * _ = _
    rw [this, h32]
    norm_num
  · intro s _ hs
    exact absurd (Fin.ext (by have := s.2; simp only; omega)) hs
  · simp

/-- The hypotheses of C42 hold for the demonstration path. -/
example : ∃ g e, Generator.construct demoBuilder 0 = .ok g ∧ g.problem.cost = some e ∧
    ∀ σ, e.eval σ = (decode g.vars σ).dt 0 := by
  have hreach : Reachable demoBuilder := ⟨true, demoOps, rfl⟩
  obtain ⟨sol, -, -, hc⟩ := construct_closed hreach demo_ready 0
  obtain ⟨e, he, h⟩ := C42_objective demoBuilder hreach demoRobot demo_ready
    (by rw [demo_table.2.1]; simp) 0 _ hc
  refine ⟨_, e, hc, he, fun σ => ?_⟩
  rw [(h σ).1]
  have hlen : (table demoBuilder).counts.length = 1 := by rw [demo_table.2.1]; rfl
  rw [Finset.sum_eq_single (⟨0, by omega⟩ : Fin (table demoBuilder).counts.length)]
  · have : (table demoBuilder).counts[0]'(by omega) = 1 := by simp [demo_table.2.1]
    change (((table demoBuilder).counts[0]'(by omega) : ℕ) : ℝ) * _ = _
    rw [this]
    simp
  · intro s _ hs
    exact absurd (Fin.ext (by have := s.2; simp only; omega)) hs
  · simp

/-! ### C43 Start values -/

theorem dtValues_below {D : Type} [Dbl D] (N : List ℕ) (a j : ℕ) (v : ℕ → D) (h : j < a) :
    dtValues ((List.range' a N.length).zip N) v j = v j := by
  induction N generalizing a v with
  | nil => rfl
  | cons n N ih =>
    rw [List.length_cons, List.range'_succ, List.zip_cons_cons, dtValues, List.foldl_cons]
    change dtValues ((List.range' (a + 1) N.length).zip N) _ j = _
    rw [ih (a + 1) _ (by omega), if_neg (by simp only; omega)]

theorem dtValues_at {D : Type} [Dbl D] (N : List ℕ) (a : ℕ) (v : ℕ → D) (s : ℕ)
    (h : s < N.length) :
    dtValues ((List.range' a N.length).zip N) v (a + s) = Num.lit 5 / Dbl.ofNat N[s] := by
  induction N generalizing a v s with
  | nil => simp at h
  | cons n N ih =>
    rw [List.length_cons, List.range'_succ, List.zip_cons_cons, dtValues, List.foldl_cons]
    change dtValues ((List.range' (a + 1) N.length).zip N) _ (a + s) = _
    cases s with
    | zero => rw [dtValues_below _ _ _ _ (by omega), if_pos (Nat.add_zero a)]; rfl
    | succ s =>
      rw [List.length_cons] at h
      rw [show a + (s + 1) = a + 1 + s by omega, ih (a + 1) _ s (by omega)]
      rfl

/-- The turn from heading `u` to heading `v`, as the code computes it. -/
theorem turn_arg (u v : ℂ) :
    ((Rotation2.mk v.re v.im).rotateBy (Rotation2.mk u.re u.im).neg).radians =
      Complex.arg (v * (starRingEnd ℂ) u) := by
  simp only [Rotation2.rotateBy, Rotation2.neg, Rotation2.radians, real_atan2]
  congr 1

/-- C43: the values the solver starts from. -/
theorem C43_start (b : Builder ℝ) (hb : Reachable b) (dr : SwerveDrivetrain ℝ) (hr : Ready b dr)
    (handle : ℤ) (g : Generator ℝ) (hg : Generator.construct b handle = .ok g)
    (T : Traj) (hT : T = decode g.vars g.problem.values) :
    ∃ sol d, b.calculateInitialGuess = .ok sol ∧
      d = 5 * (((table b).counts.length : ℝ) + 1) / sampleCount (table b).counts ∧
      (∀ d' ∈ sol.dt, d' = d) ∧
      (∀ n < sampleCount (table b).counts,
        sol.x[n]? = some (T.state n).pos.re ∧ sol.y[n]? = some (T.state n).pos.im ∧
        sol.thetacos[n]? = some (T.state n).heading.re ∧
        sol.thetasin[n]? = some (T.state n).heading.im) ∧
      ((T.state 0).vel = 0 ∧ (T.state 0).acc = 0 ∧ (T.state 0).omega = 0 ∧
        (T.state 0).alpha = 0) ∧
      (∀ n, n + 1 < sampleCount (table b).counts →
        (T.state (n + 1)).vel = ((T.state (n + 1)).pos - (T.state n).pos) / d ∧
        (T.state (n + 1)).acc = ((T.state (n + 1)).vel - (T.state n).vel) / d ∧
        (T.state (n + 1)).alpha = ((T.state (n + 1)).omega - (T.state n).omega) / d ∧
        |(T.state (n + 1)).omega * d| ≤ Real.pi ∧
        (‖(T.state n).heading‖ = 1 → ‖(T.state (n + 1)).heading‖ = 1 →
          (T.state (n + 1)).heading =
            (T.state n).heading * unitVec ((T.state (n + 1)).omega * d))) ∧
      (∀ n < sampleCount (table b).counts, ∀ j < dr.modules.length, T.force n j = 0) ∧
      (∀ s : Fin (table b).counts.length, 0 < (table b).counts[s] →
        T.dt s = 5 / ((table b).counts[s] : ℝ)) := by
  subst hT
  obtain ⟨sol, hsol, hs, hc⟩ := construct_closed hb hr handle
  rw [hc] at hg
  obtain rfl := Except.ok.inj hg
  have hcount : sampleCount (table b).counts = 1 + b.controlIntervalCounts.sum := rfl
  have hdtv : ∃ d : ℝ, 0 < d ∧ sol.dt = List.replicate (1 + b.controlIntervalCounts.sum) d ∧
      d = 5 * (((table b).counts.length : ℝ) + 1) / sampleCount (table b).counts := by
    have hok := generate_ok_imp hsol
    have hidx := C01_sample_count b.controlIntervalCounts hr.size
    have e := hsol
    rw [Builder.calculateInitialGuess, generate_eq_ok hok hidx] at e
    refine ⟨_, ?_, (congrArg SwerveSolution.dt (Except.ok.inj e)).symm, ?_⟩
    · simp only [real_div, real_mul, real_ofNat, real_lit, sampleCount]
      positivity
    · simp only [real_div, real_mul, real_ofNat, real_lit, table]
      push_cast; ring
  obtain ⟨d, hd, hdt, hdv⟩ := hdtv
  set m := dr.modules.length with hm
  set N := b.controlIntervalCounts with hN
  have some_getD : ∀ {l : List ℝ} {k : ℕ}, l.length = 1 + N.sum → k < 1 + N.sum →
      l[k]? = some (l.getD k (Num.lit 0)) := by
    intro l k hl hk
    rw [getD_lt (by omega), List.getElem?_eq_getElem (by omega)]
  have hval : ∀ n < 1 + N.sum, ∀ c < 10,
      (closedGenerator b.path dr N sol handle).problem.values (n * stride m + c) =
        guessComp sol n c := by
    intro n hn c hc
    change guessValues m sol _ _ _ (n * stride m + c) = _
    rw [guessValues_at (by simp only [stride]; omega), if_pos (by omega)]
  have hstate : ∀ n < 1 + N.sum,
      (decode (closedGenerator b.path dr N sol handle).vars
        (closedGenerator b.path dr N sol handle).problem.values).state n =
      { pos := ⟨guessComp sol n 0, guessComp sol n 1⟩
        heading := ⟨guessComp sol n 2, guessComp sol n 3⟩
        vel := ⟨guessComp sol n 4, guessComp sol n 5⟩
        acc := ⟨guessComp sol n 7, guessComp sol n 8⟩
        omega := guessComp sol n 6
        alpha := guessComp sol n 9 } := by
    intro n hn
    have h0 := hval n hn 0 (by omega)
    rw [Nat.add_zero] at h0
    have hget : ∀ f : ℕ → ℕ, ((List.range (1 + N.sum)).map f).getD n 0 = f n := by
      intro f
      rw [getD_lt (by simpa using hn)]
      simp
    simp only [decode]
    simp only [show (closedGenerator b.path dr N sol handle).vars = closedVars m (1 + N.sum)
      (List.range' ((1 + N.sum) * stride m) N.length) from rfl, closedVars, hget]
    rw [h0, hval n hn 1 (by omega), hval n hn 2 (by omega), hval n hn 3 (by omega),
      hval n hn 4 (by omega), hval n hn 5 (by omega), hval n hn 6 (by omega),
      hval n hn 7 (by omega), hval n hn 8 (by omega), hval n hn 9 (by omega)]
  have hdn : ∀ n < 1 + N.sum, sol.dt.getD n (Num.lit 0) = d := by
    intro n hn
    rw [getD_lt (by rw [hdt]; simpa using hn)]
    simp [hdt]
  refine ⟨sol, d, hsol, hdv, ?_, ?_, ?_, ?_, ?_, ?_⟩
  · intro d' hd'
    rw [hdt] at hd'
    exact List.eq_of_mem_replicate hd'
  · intro n hn
    rw [hcount] at hn
    rw [hstate n hn]
    exact ⟨some_getD hs.x hn, some_getD hs.y hn, some_getD hs.c hn, some_getD hs.s hn⟩
  · rw [hstate 0 (by omega)]
    refine ⟨Complex.ext ?_ ?_, Complex.ext ?_ ?_, ?_, ?_⟩ <;>
      simp [guessComp, guessDiff, guessOmega]
  · intro n hn
    rw [hcount] at hn
    rw [hstate n (by omega), hstate (n + 1) hn]
    have hom : guessOmega sol (n + 1) = Complex.arg
        ((⟨guessComp sol (n + 1) 2, guessComp sol (n + 1) 3⟩ : ℂ) *
          (starRingEnd ℂ) ⟨guessComp sol n 2, guessComp sol n 3⟩) / d := by
      rw [← turn_arg, guessOmega, hdn _ hn]
      rfl
    have homd : guessOmega sol (n + 1) * d = Complex.arg
        ((⟨guessComp sol (n + 1) 2, guessComp sol (n + 1) 3⟩ : ℂ) *
          (starRingEnd ℂ) ⟨guessComp sol n 2, guessComp sol n 3⟩) := by
      rw [hom, div_mul_cancel₀ _ hd.ne']
    refine ⟨Complex.ext ?_ ?_, Complex.ext ?_ ?_, ?_, ?_, ?_⟩
    · rw [Complex.div_ofReal_re]
      simp only [guessComp, guessDiff, hdn _ hn]
      rfl
    · rw [Complex.div_ofReal_im]
      simp only [guessComp, guessDiff, hdn _ hn]
      rfl
    · rw [Complex.div_ofReal_re]
      simp only [guessComp, guessDiff, hdn _ hn]
      rfl
    · rw [Complex.div_ofReal_im]
      simp only [guessComp, guessDiff, hdn _ hn]
      rfl
    · simp only [guessComp, guessDiff, hdn _ hn]
    · change |guessOmega sol (n + 1) * d| ≤ _
      rw [homd]
      exact Complex.abs_arg_le_pi _
    · intro hu hv
      change _ = _ * unitVec (guessOmega sol (n + 1) * d)
      rw [homd]
      generalize (⟨guessComp sol n 2, guessComp sol n 3⟩ : ℂ) = u at hu ⊢
      generalize (⟨guessComp sol (n + 1) 2, guessComp sol (n + 1) 3⟩ : ℂ) = v at hv ⊢
      have hnorm : ‖v * (starRingEnd ℂ) u‖ = 1 := by
        rw [norm_mul, Complex.norm_conj, hu, hv, one_mul]
      have := Complex.norm_mul_exp_arg_mul_I (v * (starRingEnd ℂ) u)
      rw [hnorm, Complex.ofReal_one, one_mul] at this
      rw [unitVec, this]
      have hc : (starRingEnd ℂ) u * u = 1 := by
        rw [mul_comm, Complex.mul_conj, Complex.normSq_eq_norm_sq, hu]; simp
      linear_combination -v * hc
  · intro n hn j hj
    rw [hcount] at hn
    have hzero : ∀ c, 10 ≤ c → c < stride m →
        (closedGenerator b.path dr N sol handle).problem.values (n * stride m + c) = 0 := by
      intro c hc hc'
      change guessValues m sol _ _ _ (n * stride m + c) = _
      rw [guessValues_at hc', if_neg (by omega), dtValues_below]
      · simp
      · have : (n + 1) * stride m ≤ (1 + N.sum) * stride m := Nat.mul_le_mul_right _ (by omega)
        rw [Nat.succ_mul] at this
        rw [← hm]
        omega
    have hF : ∀ f : ℕ → ℕ → ℕ, ((((List.range (1 + N.sum)).map fun n =>
        (List.range m).map (f n)).getD n []).getD j 0) = f n j := by
      intro f
      rw [show (((List.range (1 + N.sum)).map fun n => (List.range m).map (f n)).getD n []) =
        (List.range m).map (f n) by rw [getD_lt (by simpa using hn)]; simp,
        getD_lt (by simpa using hj)]
      simp
    change (⟨_, _⟩ : ℂ) = 0
    simp only [show (closedGenerator b.path dr N sol handle).vars = closedVars m (1 + N.sum)
      (List.range' ((1 + N.sum) * stride m) N.length) from rfl, closedVars]
    rw [hF fun n j => n * stride m + 10 + 2 * j, hF fun n j => n * stride m + 11 + 2 * j,
      Nat.add_assoc, Nat.add_assoc, hzero _ (by omega) (by simp only [stride]; omega),
      hzero _ (by omega) (by simp only [stride]; omega)]
    rfl
  · intro s _
    have hsl : (s : ℕ) < N.length := s.2
    change guessValues m sol _ _ _ ((List.range' ((1 + N.sum) * stride m) N.length).getD s 0) = _
    rw [getD_lt (by simpa using hsl), List.getElem_range', one_mul]
    have hge : 1 + N.sum ≤ ((1 + N.sum) * stride m + s) / stride m := by
      rw [Nat.le_div_iff_mul_le (by simp only [stride]; omega)]
      omega
    rw [guessValues, if_neg (by omega), dtValues_at _ _ _ _ hsl]
    simp
    rfl

/-- The demonstration path starts with its single control interval lasting 5 s. -/
example : ∃ g, Generator.construct demoBuilder 0 = .ok g ∧
    (decode g.vars g.problem.values).dt 0 = 5 := by
  have hreach : Reachable demoBuilder := ⟨true, demoOps, rfl⟩
  obtain ⟨sol, -, -, hc⟩ := construct_closed hreach demo_ready 0
  obtain ⟨-, -, -, -, -, -, -, -, -, h⟩ := C43_start demoBuilder hreach demoRobot demo_ready 0 _ hc _ rfl
  have h1 : (table demoBuilder).counts[0]'(by rw [demo_table.2.1]; simp) = 1 := by
    simp [demo_table.2.1]
  have := h ⟨0, by rw [demo_table.2.1]; simp⟩ (by
    change 0 < (table demoBuilder).counts[0]'_
    rw [h1]; norm_num)
  refine ⟨_, hc, this.trans ?_⟩
  change 5 / (((table demoBuilder).counts[0]'_ : ℕ) : ℝ) = 5
  rw [h1]
  norm_num

end Trajopt.Props
