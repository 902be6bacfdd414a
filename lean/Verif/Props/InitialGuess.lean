import Verif.Lemmas.InitialGuess
import Verif.Lemmas.Geometry
import Verif.Spec.Layout
import Verif.Props.Layout
import Verif.Props.Interp
import Mathlib.Tactic.IntervalCases

/-!
# C04–C07 The initial guess

`CalculateInitialGuess()` is `generateLinearInitialGuess initialGuessPoints controlIntervalCounts`.
-/

set_option autoImplicit false

namespace Trajopt.Props

open Spec

section AnyScalar
variable {D : Type} [Dbl D]

/-- The guess returned, in closed form. -/
theorem generate_ok_elim {pts : List (List (Pose2 D))} {N : List ℕ} {sol : SwerveSolution D}
    (h : generateLinearInitialGuess pts N = .ok sol) (hN : sampleCount N < 2 ^ 64) :
    GuessOk pts N ∧ sol.dt.length = sampleCount N ∧
    (∃ p0 ps, pts[0]? = some (p0 :: ps) ∧
      sol.x = p0.x :: ((guessPieces pts N).map Comp.x.get).flatten ∧
      sol.y = p0.y :: ((guessPieces pts N).map Comp.y.get).flatten ∧
      sol.thetacos = p0.rotation.cos :: ((guessPieces pts N).map Comp.c.get).flatten ∧
      sol.thetasin = p0.rotation.sin :: ((guessPieces pts N).map Comp.s.get).flatten) ∧
    sol.vx = [] ∧ sol.vy = [] ∧ sol.omega = [] ∧ sol.ax = [] ∧ sol.ay = [] ∧ sol.alpha = [] ∧
    sol.moduleFX = [] ∧ sol.moduleFY = [] := by
  have hok := generate_ok_imp h
  rw [generate_eq_ok hok (C01_sample_count N hN)] at h
  have h := Except.ok.inj h
  obtain ⟨p0, ps, hp⟩ := hok 0 (by omega)
  subst h
  refine ⟨hok, by simp, ⟨p0, ps, hp, ?_⟩, by simp⟩
  simp only [List.getD, hp, Option.getD_some, List.headD_cons]
  exact ⟨rfl, rfl, rfl, rfl⟩

/-- C04: whenever the initial guess is returned, `x`, `y`, `thetacos`, `thetasin` and `dt` all have
one entry per sample (any scalar arithmetic). -/
theorem C04_guess_lengths (pts : List (List (Pose2 D))) (N : List ℕ) (sol : SwerveSolution D)
    (h : generateLinearInitialGuess pts N = .ok sol) (hN : sampleCount N < 2 ^ 64) :
    sol.x.length = sampleCount N ∧ sol.y.length = sampleCount N ∧
    sol.thetacos.length = sampleCount N ∧ sol.thetasin.length = sampleCount N ∧
    sol.dt.length = sampleCount N := by
  obtain ⟨hok, hdt, ⟨p0, ps, -, hx, hy, hc, hs⟩, -⟩ := generate_ok_elim h hN
  simp only [hx, hy, hc, hs, List.length_cons, guessComp_length _ hok, hdt, sampleCount]
  simp [Nat.add_comm]

/-- C05: sample 0 of the guess is the first pose of waypoint 0's guess list, bit for bit. -/
theorem C05_start (pts : List (List (Pose2 D))) (N : List ℕ) (sol : SwerveSolution D)
    (h : generateLinearInitialGuess pts N = .ok sol) (hN : sampleCount N < 2 ^ 64) :
    ∃ p ps, pts[0]? = some (p :: ps) ∧ sol.x[0]? = some p.x ∧ sol.y[0]? = some p.y ∧
      sol.thetacos[0]? = some p.rotation.cos ∧ sol.thetasin[0]? = some p.rotation.sin := by
  obtain ⟨hok, hdt, ⟨p0, ps, hp, hx, hy, hc, hs⟩, -⟩ := generate_ok_elim h hN
  exact ⟨p0, ps, hp, by simp [hx, hy, hc, hs]⟩

end AnyScalar

/-- C04: the guessed time steps are equal and add up to five seconds per waypoint. -/
theorem C04_guess_times (pts : List (List (Pose2 ℝ))) (N : List ℕ) (sol : SwerveSolution ℝ)
    (h : generateLinearInitialGuess pts N = .ok sol) (hN : sampleCount N < 2 ^ 64) :
    (∀ d ∈ sol.dt, d = 5 * ((N.length : ℝ) + 1) / sampleCount N) ∧
    sol.dt.sum = 5 * ((N.length : ℝ) + 1) := by
  have hdt := h
  rw [generate_eq_ok (generate_ok_imp h) (C01_sample_count N hN)] at hdt
  replace hdt := (congrArg SwerveSolution.dt (Except.ok.inj hdt)).symm
  have hpos : (sampleCount N : ℝ) ≠ 0 := by
    rw [sampleCount]; positivity
  rw [hdt]
  simp only [real_div, real_mul, real_ofNat, real_lit]
  constructor
  · intro d hd
    rw [List.eq_of_mem_replicate hd]
    push_cast; ring
  · rw [List.sum_replicate, nsmul_eq_mul]
    field_simp
    push_cast; ring

/-- Last entry of one interpolated piece. -/
theorem guessPiece_last (f : Comp) (p q : Pose2 ℝ) (n : ℕ) (hn : 0 < n)
    (hu : (f = .c ∨ f = .s) → q.rotation.cos ^ 2 + q.rotation.sin ^ 2 = 1) :
    (f.get (guessPiece p q n)).getLast? = some (f.ofPose q) := by
  obtain ⟨v, hv, hc, hs⟩ := C03_last_heading p.rotation.radians q.rotation.radians n hn
  cases f with
  | x => exact C02_last _ _ _ hn
  | y => exact C02_last _ _ _ hn
  | c =>
    simp only [Comp.get, guessPiece, List.getLast?_map, hv, Option.map_some, Comp.ofPose]
    rw [real_cos, hc, Rotation2.radians, real_atan2, cos_arg_of_unit (hu (.inl rfl))]
  | s =>
    simp only [Comp.get, guessPiece, List.getLast?_map, hv, Option.map_some, Comp.ofPose]
    rw [real_sin, hs, Rotation2.radians, real_atan2, sin_arg_of_unit (hu (.inr rfl))]

/-- The sample at which guess point `j` of segment `s` is hit, one component. -/
theorem guess_hit (f : Comp) {pts : List (List (Pose2 ℝ))} {N : List ℕ} (hok : GuessOk pts N)
    {s j : ℕ} (hs : s < N.length) {cur : List (Pose2 ℝ)} (hcur : pts[s + 1]? = some cur)
    (hj : j < cur.length) (hc : 0 < pieceCount cur.length N[s] j)
    (hu : (f = .c ∨ f = .s) → cur[j].rotation.cos ^ 2 + cur[j].rotation.sin ^ 2 = 1) (a : ℝ) :
    (a :: ((guessPieces pts N).map f.get).flatten)[waypointSample N s +
      (if j + 1 < cur.length then (j + 1) * (N[s] / cur.length) else N[s])]? =
      some (f.ofPose cur[j]) := by
  have hsum := pieceCount_sum (n := N[s]) hj
  set e := (if j + 1 < cur.length then (j + 1) * (N[s] / cur.length) else N[s]) with he
  have he1 : 1 ≤ e := by
    rw [← hsum, List.range_succ, List.map_append, List.sum_append]; simp; omega
  have he2 : e ≤ N[s] := by
    rw [he]; split
    · exact le_trans (Nat.mul_le_mul_right _ (by omega)) (Nat.mul_div_le N[s] cur.length)
    · exact le_refl _
  have hg : pts.getD (s + 1) [] = cur := by simp [List.getD, hcur]
  have hn : N.getD s 0 = N[s] := getD_lt hs
  have h1 := guessComp_getElem? f hok hs (k := e - 1) (by omega)
  have h2 := segComp_piece_end f (lastGuess pts s) cur N[s] j hj hc
  rw [hg, hn] at h1
  rw [show waypointSample N s + e = ((N.take s).sum + (e - 1)) + 1 by
    unfold waypointSample; omega, List.getElem?_cons_succ, h1, h2, guessPiece_last f _ _ _ hc]
  · simp only [segPoint, getD_lt hj]
  · simpa only [segPoint, getD_lt hj] using hu

/-- C05: at every waypoint whose segment has a control interval, the guess is exactly the waypoint's
guess pose (the last pose of its list), whatever segment guess points were inserted. The heading
is hit if it is a unit vector. -/
theorem C05_waypoints (pts : List (List (Pose2 ℝ))) (N : List ℕ) (sol : SwerveSolution ℝ)
    (h : generateLinearInitialGuess pts N = .ok sol) (hN : sampleCount N < 2 ^ 64)
    (s : ℕ) (hs : s < N.length) (hpos : 0 < N[s]) (l : List (Pose2 ℝ)) (p : Pose2 ℝ)
    (hl : pts[s + 1]? = some l) (hp : l.getLast? = some p) :
    sol.x[waypointSample N (s + 1)]? = some p.x ∧
    sol.y[waypointSample N (s + 1)]? = some p.y ∧
    (p.rotation.cos ^ 2 + p.rotation.sin ^ 2 = 1 →
      sol.thetacos[waypointSample N (s + 1)]? = some p.rotation.cos ∧
      sol.thetasin[waypointSample N (s + 1)]? = some p.rotation.sin) := by
  obtain ⟨hok, hdt, ⟨p0, ps, hp0, hx, hy, hc, hs'⟩, -⟩ := generate_ok_elim h hN
  have hne : l ≠ [] := by rintro rfl; simp at hp
  have hlen : 0 < l.length := List.length_pos_iff.mpr hne
  have hj : l.length - 1 < l.length := by omega
  have hlj : l[l.length - 1] = p := by
    rw [List.getLast?_eq_getElem?, List.getElem?_eq_getElem hj] at hp
    exact Option.some.inj hp
  have hcnt : 0 < pieceCount l.length N[s] (l.length - 1) := by
    rw [pieceCount, if_neg (by omega)]
    rcases Nat.eq_zero_or_pos (N[s] / l.length) with h0 | h0
    · rw [h0]; omega
    · have h1 := Nat.mul_div_le N[s] l.length
      have h2 : l.length * (N[s] / l.length) =
          (l.length - 1) * (N[s] / l.length) + N[s] / l.length := by
        conv_lhs => rw [show l.length = (l.length - 1) + 1 by omega, Nat.add_mul, Nat.one_mul]
        simp [show l.length - 1 + 1 = l.length by omega]
      omega
  have hsucc := sum_take_succ N hs
  have key := fun f hu a => guess_hit f hok hs hl hj hcnt hu a
  simp only [if_neg (show ¬ (l.length - 1 + 1 < l.length) by omega), hlj] at key
  rw [show waypointSample N (s + 1) = waypointSample N s + N[s] from hsucc, hx, hy, hc, hs']
  exact ⟨key .x (by simp) _, key .y (by simp) _,
    fun hu => ⟨key .c (fun _ => hu) _, key .s (fun _ => hu) _⟩⟩

/-- C06: with `g` guess points on a segment of `N_s ≥ g` control intervals, guess point `j < g - 1`
is hit at sample `(j + 1) ⌊N_s / g⌋` of the segment, the last one at the segment's last sample. -/
theorem C06_segment_points (pts : List (List (Pose2 ℝ))) (N : List ℕ) (sol : SwerveSolution ℝ)
    (h : generateLinearInitialGuess pts N = .ok sol) (hN : sampleCount N < 2 ^ 64)
    (s : ℕ) (hs : s < N.length) (l : List (Pose2 ℝ)) (hl : pts[s + 1]? = some l)
    (hg : l.length ≤ N[s]) (j : ℕ) (hj : j < l.length) (i : ℕ)
    (hi : i = waypointSample N s +
      if j < l.length - 1 then (j + 1) * (N[s] / l.length) else N[s]) :
    sol.x[i]? = some l[j].x ∧ sol.y[i]? = some l[j].y ∧
    (l[j].rotation.cos ^ 2 + l[j].rotation.sin ^ 2 = 1 →
      sol.thetacos[i]? = some l[j].rotation.cos ∧ sol.thetasin[i]? = some l[j].rotation.sin) := by
  obtain ⟨hok, hdt, ⟨p0, ps, hp0, hx, hy, hc, hs'⟩, -⟩ := generate_ok_elim h hN
  have hdiv : 1 ≤ N[s] / l.length := by
    rw [Nat.le_div_iff_mul_le (by omega)]; omega
  have hcnt : 0 < pieceCount l.length N[s] j := by
    rw [pieceCount]; split
    · omega
    · have h1 := Nat.mul_div_le N[s] l.length
      have h2 : l.length * (N[s] / l.length) =
          (l.length - 1) * (N[s] / l.length) + N[s] / l.length := by
        conv_lhs => rw [show l.length = (l.length - 1) + 1 by omega, Nat.add_mul, Nat.one_mul]
        simp [show l.length - 1 + 1 = l.length by omega]
      omega
  have key := fun f hu a => guess_hit f hok hs hl hj hcnt hu a
  have hif : (if j < l.length - 1 then (j + 1) * (N[s] / l.length) else N[s]) =
      (if j + 1 < l.length then (j + 1) * (N[s] / l.length) else N[s]) := by
    by_cases hc : j + 1 < l.length
    · rw [if_pos hc, if_pos (by omega)]
    · rw [if_neg hc, if_neg (by omega)]
  rw [hi, hif, hx, hy, hc, hs']
  exact ⟨key .x (by simp) _, key .y (by simp) _,
    fun hu => ⟨key .c (fun _ => hu) _, key .s (fun _ => hu) _⟩⟩

/-- Membership in one component of the guess. -/
theorem mem_guessComp {D : Type} [Dbl D] {f : Comp} {pts : List (List (Pose2 D))} {N : List ℕ} {v : D}
    (hv : v ∈ ((guessPieces pts N).map f.get).flatten) :
    ∃ s < N.length, ∃ j < (pts.getD (s + 1) []).length, ∃ n,
      v ∈ f.get (guessPiece (segPoint (lastGuess pts s) (pts.getD (s + 1) []) j)
        (segPoint (lastGuess pts s) (pts.getD (s + 1) []) (j + 1)) n) := by
  rw [List.mem_flatten] at hv
  obtain ⟨l, hl, hv⟩ := hv
  rw [List.mem_map] at hl
  obtain ⟨piece, hp, rfl⟩ := hl
  rw [guessPieces, List.mem_flatten] at hp
  obtain ⟨seg, hseg, hp⟩ := hp
  rw [List.mem_map] at hseg
  obtain ⟨s, hs, rfl⟩ := hseg
  rw [segClosed, List.mem_map] at hp
  obtain ⟨j, hj, rfl⟩ := hp
  exact ⟨s, by simpa using hs, j, by simpa using hj, _, hv⟩

/-- Points interpolated between are guess points of waypoints `0, …, N.length`. -/
theorem segPoint_mem {D : Type} [Dbl D] {pts : List (List (Pose2 D))} {N : List ℕ}
    (hok : GuessOk pts N) {s : ℕ} (hs : s < N.length) {j : ℕ}
    (hj : j ≤ (pts.getD (s + 1) []).length) :
    ∃ w ≤ N.length, ∃ l, pts[w]? = some l ∧
      segPoint (lastGuess pts s) (pts.getD (s + 1) []) j ∈ l := by
  cases j with
  | zero =>
    obtain ⟨p, ps, hp⟩ := hok s (by omega)
    refine ⟨s, by omega, _, hp, ?_⟩
    simp only [segPoint, lastGuess, List.getD, hp, Option.getD_some]
    rw [List.getLast?_eq_some_getLast (by simp), Option.getD_some]
    exact List.getLast_mem _
  | succ j =>
    obtain ⟨p, ps, hp⟩ := hok (s + 1) (by omega)
    refine ⟨s + 1, by omega, _, hp, ?_⟩
    simp only [List.getD, hp, Option.getD_some] at hj ⊢
    simp only [segPoint]
    rw [getD_lt (by simpa using hj)]
    exact List.getElem_mem _

/-- C07: if all guess points of the waypoints used have `x` in `[lo, hi]`, so have all samples of
the guess; same for `y`. -/
theorem C07_range (pts : List (List (Pose2 ℝ))) (N : List ℕ) (sol : SwerveSolution ℝ)
    (h : generateLinearInitialGuess pts N = .ok sol) (hN : sampleCount N < 2 ^ 64) (lo hi : ℝ) :
    ((∀ w ≤ N.length, ∀ l, pts[w]? = some l → ∀ p ∈ l, lo ≤ p.x ∧ p.x ≤ hi) →
      ∀ v ∈ sol.x, lo ≤ v ∧ v ≤ hi) ∧
    ((∀ w ≤ N.length, ∀ l, pts[w]? = some l → ∀ p ∈ l, lo ≤ p.y ∧ p.y ≤ hi) →
      ∀ v ∈ sol.y, lo ≤ v ∧ v ≤ hi) := by
  obtain ⟨hok, hdt, ⟨p0, ps, hp0, hx, hy, hc, hs'⟩, -⟩ := generate_ok_elim h hN
  constructor
  · intro hr v hv
    rw [hx, List.mem_cons] at hv
    rcases hv with rfl | hv
    · exact hr 0 (by omega) _ hp0 p0 (by simp)
    · obtain ⟨s, hs, j, hj, n, hv⟩ := mem_guessComp hv
      obtain ⟨w, hw, l, hl, hm⟩ := segPoint_mem hok hs (le_of_lt hj)
      obtain ⟨w', hw', l', hl', hm'⟩ := segPoint_mem hok hs hj
      have a := hr w hw l hl _ hm
      have b := hr w' hw' l' hl' _ hm'
      have c := C02_range _ _ _ v hv
      exact ⟨le_trans (le_min a.1 b.1) c.1, le_trans c.2.1 (max_le a.2 b.2)⟩
  · intro hr v hv
    rw [hy, List.mem_cons] at hv
    rcases hv with rfl | hv
    · exact hr 0 (by omega) _ hp0 p0 (by simp)
    · obtain ⟨s, hs, j, hj, n, hv⟩ := mem_guessComp hv
      obtain ⟨w, hw, l, hl, hm⟩ := segPoint_mem hok hs (le_of_lt hj)
      obtain ⟨w', hw', l', hl', hm'⟩ := segPoint_mem hok hs hj
      have a := hr w hw l hl _ hm
      have b := hr w' hw' l' hl' _ hm'
      have c := C02_range _ _ _ v hv
      exact ⟨le_trans (le_min a.1 b.1) c.1, le_trans c.2.1 (max_le a.2 b.2)⟩

/-- Cosines and sines of a guess come from the same angles. -/
theorem guess_angles {D : Type} [Dbl D] (pts : List (List (Pose2 D))) (N : List ℕ) :
    ∃ θ : List D, ((guessPieces pts N).map Comp.c.get).flatten = θ.map Num.cos ∧
      ((guessPieces pts N).map Comp.s.get).flatten = θ.map Num.sin := by
  have key : ∀ L : List (List D × List D × List D × List D),
      (∀ p ∈ L, ∃ θ : List D, p.2.2.1 = θ.map Num.cos ∧ p.2.2.2 = θ.map Num.sin) →
      ∃ θ : List D, (L.map Comp.c.get).flatten = θ.map Num.cos ∧
        (L.map Comp.s.get).flatten = θ.map Num.sin := by
    intro L
    induction L with
    | nil => intro _; exact ⟨[], rfl, rfl⟩
    | cons p L ih =>
      intro hL
      obtain ⟨θ, h1, h2⟩ := hL p (by simp)
      obtain ⟨θ', h3, h4⟩ := ih fun q hq => hL q (by simp [hq])
      exact ⟨θ ++ θ', by simp [Comp.get, h1, h3], by simp [Comp.get, h2, h4]⟩
  apply key
  intro p hp
  rw [guessPieces, List.mem_flatten] at hp
  obtain ⟨seg, hseg, hp⟩ := hp
  rw [List.mem_map] at hseg
  obtain ⟨s, -, rfl⟩ := hseg
  rw [segClosed, List.mem_map] at hp
  obtain ⟨j, -, rfl⟩ := hp
  exact ⟨_, rfl, rfl⟩

/-- C07: all headings of the guess are unit vectors if the first guess pose's heading is. -/
theorem C07_unit_headings (pts : List (List (Pose2 ℝ))) (N : List ℕ) (sol : SwerveSolution ℝ)
    (h : generateLinearInitialGuess pts N = .ok sol) (hN : sampleCount N < 2 ^ 64)
    (hunit : ∀ p ps, pts[0]? = some (p :: ps) →
      p.rotation.cos ^ 2 + p.rotation.sin ^ 2 = 1)
    (i : ℕ) (c s : ℝ) (hc : sol.thetacos[i]? = some c) (hs : sol.thetasin[i]? = some s) :
    c ^ 2 + s ^ 2 = 1 := by
  obtain ⟨hok, hdt, ⟨p0, ps, hp0, hx, hy, hc', hs'⟩, -⟩ := generate_ok_elim h hN
  obtain ⟨θ, hθc, hθs⟩ := guess_angles pts N
  rw [hc', hθc] at hc
  rw [hs', hθs] at hs
  cases i with
  | zero =>
    simp only [List.getElem?_cons_zero, Option.some.injEq] at hc hs
    rw [← hc, ← hs]; exact hunit p0 ps hp0
  | succ i =>
    simp only [List.getElem?_cons_succ, List.getElem?_map, Option.map_eq_some_iff] at hc hs
    obtain ⟨t, ht, rfl⟩ := hc
    obtain ⟨t', ht', rfl⟩ := hs
    rw [ht] at ht'
    rw [← Option.some.inj ht']
    exact Real.cos_sq_add_sin_sq t

/-! ### The hypotheses are satisfiable: the path of the repository's initial-guess test -/

/-- Guess points of the repository's initial-guess test, headings 0. -/
noncomputable def testPts : List (List (Pose2 ℝ)) :=
  [[.ofXYHeading 1 0 0], [.ofXYHeading 2 0 0, .ofXYHeading 3 0 0], [.ofXYHeading 6 0 0]]

example : ∃ sol, generateLinearInitialGuess testPts [2, 3] = .ok sol ∧
    sol.x.length = 6 ∧ sol.x[0]? = some 1 ∧ sol.x[1]? = some 2 ∧ sol.x[2]? = some 3 ∧
    sol.x[5]? = some 6 ∧ sol.thetacos[5]? = some 1 := by
  have hok : GuessOk testPts [2, 3] := by
    intro i hi
    simp only [List.length_cons, List.length_nil] at hi
    interval_cases i <;> exact ⟨_, _, rfl⟩
  have hg := generate_eq_ok hok (C01_sample_count [2, 3] (by decide))
  refine ⟨_, hg, (C04_guess_lengths _ _ _ hg (by decide)).1, ?_, ?_, ?_, ?_, ?_⟩
  · obtain ⟨p, ps, hp, hx, -⟩ := C05_start _ _ _ hg (by decide)
    cases hp; exact hx
  · exact (C06_segment_points _ _ _ hg (by decide) 0 (by decide) _ rfl (by decide) 0 (by decide)
      1 (by decide)).1
  · exact (C06_segment_points _ _ _ hg (by decide) 0 (by decide) _ rfl (by decide) 1 (by decide)
      2 (by decide)).1
  · exact (C05_waypoints _ _ _ hg (by decide) 1 (by decide) (by decide) _ _ rfl rfl).1
  · have := (C05_waypoints _ _ _ hg (by decide) 1 (by decide) (by decide) _ _ rfl rfl).2.2
      (by simp [Pose2.ofXYHeading, Rotation2.ofAngle])
    refine Eq.trans this.1 ?_
    simp [Pose2.ofXYHeading, Rotation2.ofAngle]

end Trajopt.Props
