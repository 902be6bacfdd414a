import Verif.Model.InitialGuess
import Verif.Lemmas.Util
import Verif.Lemmas.Interp

/-! Helper lemmas about `GenerateLinearInitialGuess`. -/

set_option autoImplicit false

namespace Trajopt

variable {D : Type} [Dbl D]

/-- Points visited on a segment: the previous waypoint's guess, then the segment's guess list. -/
def segPoint (prev : Pose2 D) (cur : List (Pose2 D)) : ℕ → Pose2 D
  | 0 => prev
  | j + 1 => cur.getD j prev

/-- Samples used for piece `j` of a segment with `g` guess points and `n` control intervals. -/
def pieceCount (g n j : ℕ) : ℕ := if j + 1 < g then n / g else n - (g - 1) * (n / g)

/-- Closed form of one iteration of the segment loop. -/
def segClosed (prev : Pose2 D) (cur : List (Pose2 D)) (n : ℕ) :
    List (List D × List D × List D × List D) :=
  (List.range cur.length).map fun j =>
    guessPiece (segPoint prev cur j) (segPoint prev cur (j + 1)) (pieceCount cur.length n j)

theorem getD_lt {α : Type} {l : List α} {i : ℕ} {d : α} (h : i < l.length) :
    l.getD i d = l[i] := by
  simp [List.getD, h]

theorem vback_ok {α : Type} {l : List α} {a : α} (h : l.getLast? = some a) : vback l = .ok a := by
  simp [vback, h]

theorem vfront_ok {α : Type} {l : List α} {a : α} (h : l.head? = some a) : vfront l = .ok a := by
  simp [vfront, h]

theorem guessSegment_ok {pts : List (List (Pose2 D))} {N : List ℕ} {w n : ℕ}
    {prevl cur : List (Pose2 D)} {prev : Pose2 D}
    (hn : N[w - 1]? = some n) (hcur : pts[w]? = some cur) (hprev : pts[w - 1]? = some prevl)
    (hlast : prevl.getLast? = some prev) (hne : cur ≠ []) :
    guessSegment pts N w = .ok (segClosed prev cur n) := by
  obtain ⟨c, cs, rfl⟩ := List.exists_cons_of_ne_nil hne
  unfold guessSegment
  rw [vat_eq_ok.mpr hn, Except.ok_bind, vat_eq_ok.mpr hcur, Except.ok_bind]
  simp only [List.length_cons, Nat.add_one_ne_zero, if_false, Nat.add_sub_cancel]
  rw [vat_eq_ok.mpr hprev, Except.ok_bind, vback_ok hlast, Except.ok_bind,
    vfront_ok (a := c) rfl, Except.ok_bind]
  have hmid : (List.range' 1 (cs.length + 1 - 2)).mapM (fun guessPointIndex => (do
      let p ← vat (c :: cs) (guessPointIndex - 1)
      let q ← vat (c :: cs) guessPointIndex
      pure (guessPiece p q (n / (cs.length + 1))) : Res (List D × List D × List D × List D))) =
      .ok ((List.range' 1 (cs.length + 1 - 2)).map fun j =>
        guessPiece (segPoint prev (c :: cs) j) (segPoint prev (c :: cs) (j + 1))
          (pieceCount (cs.length + 1) n j)) := by
    apply mapM_ok
    intro j hj
    rw [List.mem_range'_1] at hj
    rw [vat_ok (by simp; omega), vat_ok (by simp; omega)]
    obtain ⟨i, rfl⟩ : ∃ i, j = i + 1 := ⟨j - 1, by omega⟩
    simp only [Except.ok_bind, Nat.add_sub_cancel, segPoint, pieceCount]
    rw [if_pos (by omega)]
    rw [getD_lt (by simp; omega), getD_lt (by simp; omega)]
    rfl
  rw [hmid]
  simp only [Except.ok_bind]
  unfold segClosed
  rcases cs with _ | ⟨c', cs⟩
  · simp [segPoint, pieceCount, pure, Except.pure]
  · have hl : (c :: c' :: cs).getLast? = some ((c :: c' :: cs)[cs.length + 1]) := by
      rw [List.getLast?_eq_getElem?]; simp
    rw [if_pos (by simp), vat_ok (by simp), vback_ok hl]
    simp only [Except.ok_bind, pure, Except.pure]
    congr 1
    have hr : List.range (cs.length + 1 + 1) = 0 :: (List.range' 1 cs.length ++ [cs.length + 1]) := by
      rw [List.range_eq_range', List.range'_succ, List.range'_concat]
      simp [add_comm]
    simp only [List.length_cons]
    rw [hr, List.map_cons, List.map_append]
    simp only [List.cons_append, List.map_cons, List.map_nil]
    congr 1
    simp [segPoint, pieceCount]

/-- The last guess pose of waypoint `w`. -/
def lastGuess (pts : List (List (Pose2 D))) (w : ℕ) : Pose2 D :=
  ((pts.getD w []).getLast?).getD Pose2.zero

/-- All pieces of an initial guess. -/
def guessPieces (pts : List (List (Pose2 D))) (N : List ℕ) :
    List (List D × List D × List D × List D) :=
  ((List.range N.length).map fun s =>
    segClosed (lastGuess pts s) (pts.getD (s + 1) []) (N.getD s 0)).flatten

/-- A non-empty guess list for every waypoint that the counts mention. -/
def GuessOk (pts : List (List (Pose2 D))) (N : List ℕ) : Prop :=
  ∀ i ≤ N.length, ∃ p ps, pts[i]? = some (p :: ps)

theorem getIndexLoop_isOk (N : List ℕ) : ∀ (r i idx : ℕ), i + r ≤ N.length →
    ∃ k, getIndexLoop N r i idx = .ok k
  | 0, i, idx, _ => ⟨_, rfl⟩
  | r + 1, i, idx, h => by
    rw [getIndexLoop, vat_ok (by omega), Except.ok_bind]
    exact getIndexLoop_isOk N r (i + 1) _ (by omega)

theorem getIndex_isOk (N : List ℕ) (w k : ℕ) (h : w ≤ N.length + 1) :
    ∃ i, getIndex N w k = .ok i := by
  simp only [getIndex]
  obtain ⟨i, hi⟩ := getIndexLoop_isOk N (w - 1) 0 (if w > 0 then 1 else 0) (by omega)
  rw [hi]
  exact ⟨_, rfl⟩

theorem generate_eq_ok {pts : List (List (Pose2 D))} {N : List ℕ} (h : GuessOk pts N) {n : ℕ}
    (hn : getIndex N (N.length + 1) 0 = .ok n) :
    generateLinearInitialGuess pts N = .ok {
      dt := List.replicate n ((Dbl.ofNat (N.length + 1) * Num.lit 5) / Dbl.ofNat n)
      x := ((pts.getD 0 []).headD Pose2.zero).x :: ((guessPieces pts N).map (·.1)).flatten
      y := ((pts.getD 0 []).headD Pose2.zero).y :: ((guessPieces pts N).map (·.2.1)).flatten
      thetacos := ((pts.getD 0 []).headD Pose2.zero).rotation.cos ::
        ((guessPieces pts N).map (·.2.2.1)).flatten
      thetasin := ((pts.getD 0 []).headD Pose2.zero).rotation.sin ::
        ((guessPieces pts N).map (·.2.2.2)).flatten } := by
  have hsegs : (List.range' 1 (N.length + 1 - 1)).mapM (guessSegment pts N) =
      .ok ((List.range' 1 (N.length + 1 - 1)).map fun w =>
        segClosed (lastGuess pts (w - 1)) (pts.getD w []) (N.getD (w - 1) 0)) := by
    apply mapM_ok
    intro w hw
    rw [List.mem_range'_1] at hw
    obtain ⟨q, qs, hq⟩ := h w (by omega)
    obtain ⟨p, ps, hp⟩ := h (w - 1) (by omega)
    have hN : w - 1 < N.length := by omega
    obtain ⟨last, hl⟩ : ∃ last, (p :: ps).getLast? = some last :=
      ⟨_, List.getLast?_eq_some_getLast (by simp)⟩
    rw [guessSegment_ok (n := N[w - 1]) (by simp [hN]) hq hp hl (by simp)]
    simp only [lastGuess, List.getD, hq, hp, hl, Option.getD_some]
    simp [hN]
  obtain ⟨p, ps, hp⟩ := h 0 (by omega)
  have hf : vfront pts = .ok (p :: ps) := by
    rw [← List.head?_eq_getElem?] at hp
    exact vfront_ok hp
  unfold generateLinearInitialGuess
  simp only []
  rw [hn, hf, Except.ok_bind, Except.ok_bind, vfront_ok (a := p) rfl, Except.ok_bind, hsegs,
    Except.ok_bind]
  have hpieces : (List.map (fun w => segClosed (lastGuess pts (w - 1)) (pts.getD w [])
      (N.getD (w - 1) 0)) (List.range' 1 (N.length + 1 - 1))).flatten = guessPieces pts N := by
    unfold guessPieces
    rw [Nat.add_sub_cancel, List.range'_eq_map_range, List.map_map]
    congr 2
    funext s
    simp [add_comm]
  rw [hpieces]
  simp [List.getD, hp, pure, Except.pure]

theorem generate_ok_imp {pts : List (List (Pose2 D))} {N : List ℕ} {sol : SwerveSolution D}
    (h : generateLinearInitialGuess pts N = .ok sol) : GuessOk pts N := by
  unfold generateLinearInitialGuess at h
  simp only [Except.bind_eq_ok] at h
  obtain ⟨n, -, l, hl, p, hp, segs, hsegs, -⟩ := h
  have hseg : ∀ w, 1 ≤ w → w ≤ N.length → ∃ r, guessSegment pts N w = .ok r := by
    intro w h1 h2
    rw [mapM_eq_ok] at hsegs
    have hmem : w ∈ List.range' 1 (N.length + 1 - 1) := by rw [List.mem_range'_1]; omega
    obtain ⟨i, hi, rfl⟩ := List.getElem_of_mem hmem
    have hlen := hsegs.length_eq
    exact ⟨_, (List.forall₂_iff_get.mp hsegs).2 i hi (by omega)⟩
  intro i hi
  rcases Nat.eq_zero_or_pos i with rfl | h0
  · cases l with
    | nil => simp [vfront] at hp
    | cons a l =>
      refine ⟨a, l, ?_⟩
      rw [← List.head?_eq_getElem?]
      unfold vfront at hl
      split at hl <;> simp_all
  · obtain ⟨r, hr⟩ := hseg i h0 hi
    unfold guessSegment at hr
    rw [Except.bind_eq_ok] at hr
    obtain ⟨n, -, hr⟩ := hr
    rw [Except.bind_eq_ok] at hr
    obtain ⟨cur, hcur, hr⟩ := hr
    rw [vat_eq_ok] at hcur
    cases cur with
    | nil => simp [throw, throwThe, MonadExceptOf.throw] at hr
    | cons a l => exact ⟨a, l, hcur⟩

/-! ### Positions in the guess -/

omit [Dbl D] in
theorem flatten_getElem? {α : Type} : ∀ (L : List (List α)) (j k : ℕ) (hj : j < L.length),
    k < L[j].length → L.flatten[((L.take j).map List.length).sum + k]? = L[j][k]?
  | [], j, k, hj, _ => by simp at hj
  | l :: L, 0, k, _, hk => by
    simp only [List.getElem_cons_zero] at hk
    simp [List.getElem?_append_left hk]
  | l :: L, j + 1, k, hj, hk => by
    have ih := flatten_getElem? L j k (by simpa using hj) (by simpa using hk)
    simp only [List.flatten_cons, List.take_succ_cons, List.map_cons, List.sum_cons,
      List.getElem_cons_succ]
    rw [← ih, List.getElem?_append_right (by omega)]
    congr 1; omega

theorem sum_map_length_take_range {α : Type} (f : ℕ → List α) (c : ℕ → ℕ)
    (h : ∀ i, (f i).length = c i) (m j : ℕ) (hj : j ≤ m) :
    ((((List.range m).map f).take j).map List.length).sum = ((List.range j).map c).sum := by
  rw [← List.map_take, List.take_range, Nat.min_eq_left hj, List.map_map]
  congr 1
  apply List.map_congr_left
  intro i _
  exact h i

theorem range_sum_const (c j : ℕ) (f : ℕ → ℕ) (h : ∀ i < j, f i = c) :
    ((List.range j).map f).sum = j * c := by
  rw [List.map_congr_left (g := fun _ => c) (by intro i hi; exact h i (by simpa using hi))]
  simp

theorem range_sum_take (N : List ℕ) (j : ℕ) (hj : j ≤ N.length) :
    ((List.range j).map fun s => N.getD s 0).sum = (N.take j).sum := by
  induction j with
  | zero => simp
  | succ j ih =>
    rw [List.range_succ, List.map_append, List.sum_append, ih (by omega), sum_take_succ N (by omega)]
    simp [List.getD, (by omega : j < N.length)]

/-- The four components of a piece. -/
inductive Comp | x | y | c | s

/-- Component of a piece. -/
def Comp.get : Comp → (List D × List D × List D × List D) → List D
  | .x, p => p.1
  | .y, p => p.2.1
  | .c, p => p.2.2.1
  | .s, p => p.2.2.2

/-- Component of a pose. -/
def Comp.ofPose : Comp → Pose2 D → D
  | .x, p => p.x
  | .y, p => p.y
  | .c, p => p.rotation.cos
  | .s, p => p.rotation.sin

@[simp] theorem guessPiece_length (f : Comp) (p q : Pose2 D) (n : ℕ) :
    (f.get (guessPiece p q n)).length = n := by
  cases f <;> simp [Comp.get, guessPiece]

/-- One component of all samples of one segment. -/
def segComp (f : Comp) (prev : Pose2 D) (cur : List (Pose2 D)) (n : ℕ) : List D :=
  ((segClosed prev cur n).map f.get).flatten

theorem pieceCount_sum {g n j : ℕ} (hj : j < g) :
    ((List.range (j + 1)).map (pieceCount g n)).sum =
      if j + 1 < g then (j + 1) * (n / g) else n := by
  have hle : (g - 1) * (n / g) ≤ n :=
    le_trans (Nat.mul_le_mul_right _ (Nat.sub_le g 1)) (Nat.mul_div_le n g)
  split
  · rename_i h
    apply range_sum_const
    intro i hi
    rw [pieceCount, if_pos (by omega)]
  · rename_i h
    have hg : j + 1 = g := by omega
    rw [List.range_succ, List.map_append, List.sum_append,
      range_sum_const (n / g) j _ (by intro i hi; rw [pieceCount, if_pos (by omega)])]
    have hjg : j = g - 1 := by omega
    simp only [List.map_cons, List.map_nil, List.sum_cons, List.sum_nil, pieceCount, if_neg h]
    rw [hjg]; omega

theorem segComp_length (f : Comp) (prev : Pose2 D) (cur : List (Pose2 D)) (n : ℕ)
    (h : cur ≠ []) : (segComp f prev cur n).length = n := by
  have hpos : 0 < cur.length := List.length_pos_iff.mpr h
  have h1 := pieceCount_sum (n := n) (j := cur.length - 1) (g := cur.length) (by omega)
  rw [if_neg (by omega), show cur.length - 1 + 1 = cur.length by omega] at h1
  rw [segComp, segClosed, List.length_flatten, List.map_map, List.map_map]
  refine Eq.trans ?_ h1
  congr 1
  apply List.map_congr_left
  intro j _
  simp

/-- The last sample of piece `j`. -/
theorem segComp_piece_end (f : Comp) (prev : Pose2 D) (cur : List (Pose2 D)) (n j : ℕ)
    (hj : j < cur.length) (hc : 0 < pieceCount cur.length n j) :
    (segComp f prev cur n)[(if j + 1 < cur.length then (j + 1) * (n / cur.length) else n) - 1]? =
      (f.get (guessPiece (segPoint prev cur j) (segPoint prev cur (j + 1))
        (pieceCount cur.length n j))).getLast? := by
  rw [← pieceCount_sum hj, List.getLast?_eq_getElem?, guessPiece_length]
  rw [List.range_succ, List.map_append, List.sum_append]
  have key := flatten_getElem? ((segClosed prev cur n).map f.get) j (pieceCount cur.length n j - 1)
    (by simpa [segClosed] using hj) (by simp [segClosed]; omega)
  simp only [segClosed, List.map_map] at key
  rw [sum_map_length_take_range _ (pieceCount cur.length n) (by intro i; simp) _ _ (by omega)] at key
  rw [segComp, segClosed, List.map_map]
  simp only [List.map_cons, List.map_nil, List.sum_cons, List.sum_nil]
  rw [show (List.map (pieceCount cur.length n) (List.range j)).sum +
      (pieceCount cur.length n j + 0) - 1 = (List.map (pieceCount cur.length n) (List.range j)).sum +
      (pieceCount cur.length n j - 1) by omega, key]
  simp

theorem guessPieces_comp (f : Comp) (pts : List (List (Pose2 D))) (N : List ℕ) :
    ((guessPieces pts N).map f.get).flatten =
      ((List.range N.length).map fun s =>
        segComp f (lastGuess pts s) (pts.getD (s + 1) []) (N.getD s 0)).flatten := by
  unfold guessPieces
  rw [List.map_flatten, List.flatten_flatten, List.map_map, List.map_map]
  rfl

omit [Dbl D] in
theorem guessOk_cur {pts : List (List (Pose2 D))} {N : List ℕ} (h : GuessOk pts N) {s : ℕ}
    (hs : s < N.length) : pts.getD (s + 1) [] ≠ [] := by
  obtain ⟨p, ps, hp⟩ := h (s + 1) (by omega)
  simp [List.getD, hp]

theorem guessComp_length (f : Comp) {pts : List (List (Pose2 D))} {N : List ℕ}
    (h : GuessOk pts N) : (((guessPieces pts N).map f.get).flatten).length = N.sum := by
  rw [guessPieces_comp, List.length_flatten, List.map_map]
  have := range_sum_take N N.length (le_refl _)
  rw [List.take_length] at this
  rw [← this]
  congr 1
  apply List.map_congr_left
  intro s hs
  exact segComp_length f _ _ _ (guessOk_cur h (by simpa using hs))

/-- Sample `k` of segment `s` in the guess. -/
theorem guessComp_getElem? (f : Comp) {pts : List (List (Pose2 D))} {N : List ℕ}
    (h : GuessOk pts N) {s k : ℕ} (hs : s < N.length) (hk : k < N[s]) :
    (((guessPieces pts N).map f.get).flatten)[(N.take s).sum + k]? =
      (segComp f (lastGuess pts s) (pts.getD (s + 1) []) (N.getD s 0))[k]? := by
  rw [guessPieces_comp]
  have hNs : N.getD s 0 = N[s] := getD_lt hs
  have key := flatten_getElem? ((List.range N.length).map fun s =>
        segComp f (lastGuess pts s) (pts.getD (s + 1) []) (N.getD s 0)) s k (by simpa using hs)
        (by simp only [List.getElem_map, List.getElem_range]
            rw [segComp_length _ _ _ _ (guessOk_cur h hs), hNs]; exact hk)
  have hsum : (List.map List.length (List.take s (List.map (fun s =>
        segComp f (lastGuess pts s) (pts.getD (s + 1) []) (N.getD s 0))
        (List.range N.length)))).sum = (N.take s).sum := by
    rw [← range_sum_take N s (by omega), ← List.map_take, List.take_range,
      Nat.min_eq_left (by omega), List.map_map]
    congr 1
    apply List.map_congr_left
    intro t ht
    exact segComp_length f _ _ _ (guessOk_cur h (by have := List.mem_range.mp ht; omega))
  rw [hsum] at key
  rw [key]
  simp

end Trajopt
