import Verif.Spec.WidePath
import Verif.Lemmas.Wide
import Verif.Lemmas.Change
import Verif.Lemmas.Generator

/-!
# Builder calls and the initial guess with finite doubles
-/

set_option autoImplicit false

namespace Trajopt

open Spec Builder Wide

/-- An outcome with finite data. -/
def wideOut (o : Out ℝ) : Out Wide := (Builder.wide o.1, o.2)

theorem wideOut_andThen {o : Out ℝ} {f : Builder ℝ → Out ℝ} {f' : Builder Wide → Out Wide}
    (h : ∀ b, f' (Builder.wide b) = wideOut (f b)) :
    Builder.andThen (wideOut o) f' = wideOut (Builder.andThen o f) := by
  obtain ⟨b, e⟩ := o
  cases e with
  | none => exact h b
  | some e => rfl

theorem wide_loop (n : ℕ) (i : ℤ) (b : Builder ℝ) :
    newWptsLoop n i (Builder.wide b) = Builder.wide (newWptsLoop n i b) := by
  induction n generalizing i b with
  | zero => rfl
  | succ n ih =>
    rw [newWptsLoop, newWptsLoop, ← ih]
    congr 1
    simp only [Builder.wide, SwervePath.wide, List.map_append, List.map_cons, List.map_nil]
    rfl

theorem wide_newWpts (k : ℕ) (b : Builder ℝ) :
    (Builder.wide b).newWpts k = Builder.wide (b.newWpts k) := by
  have hl : (Builder.wide b).path.waypoints.length = b.path.waypoints.length := List.length_map ..
  unfold Builder.newWpts
  rw [hl]
  dsimp only
  split
  · exact wide_loop ..
  · rfl

theorem wide_modify {i : ℕ} {f : Waypoint ℝ → Waypoint ℝ} {f' : Waypoint Wide → Waypoint Wide}
    (b : Builder ℝ) (h : ∀ w, f' (Waypoint.wide w) = Waypoint.wide (f w)) :
    (Builder.wide b).modifyWpt i f' = wideOut (b.modifyWpt i f) := by
  have hl : (Builder.wide b).path.waypoints.length = b.path.waypoints.length := List.length_map ..
  unfold modifyWpt
  rw [hl]
  split
  · simp only [wideOut, Builder.wide, SwervePath.wide, Prod.mk.injEq, and_true, Builder.mk.injEq,
      SwervePath.mk.injEq]
    apply List.ext_getElem (by simp)
    intro k h1 h2
    simp only [List.getElem_modify, List.getElem_map]
    split
    · exact h _
    · rfl
  · rfl

theorem wide_pushWpt (c : Constraint ℝ) (w : Waypoint ℝ) :
    pushWpt c.wide (Waypoint.wide w) = Waypoint.wide (pushWpt c w) := by
  simp [pushWpt, Waypoint.wide]

theorem wide_pushSgmt (c : Constraint ℝ) (w : Waypoint ℝ) :
    pushSgmt c.wide (Waypoint.wide w) = Waypoint.wide (pushSgmt c w) := by
  simp [pushSgmt, Waypoint.wide]

theorem wide_wptConstraint (i : ℕ) (c : Constraint ℝ) (b : Builder ℝ) :
    (Builder.wide b).wptConstraint i c.wide = wideOut (b.wptConstraint i c) := by
  unfold Builder.wptConstraint
  rw [wide_newWpts]
  exact wide_modify _ (wide_pushWpt c)

theorem wide_sgmtLoop (c : Constraint ℝ) (n i : ℕ) (b : Builder ℝ) :
    sgmtLoop c.wide n i (Builder.wide b) = wideOut (sgmtLoop c n i b) := by
  induction n generalizing i b with
  | zero => rfl
  | succ n ih =>
    rw [sgmtLoop, sgmtLoop, wide_modify b (wide_pushWpt c)]
    refine wideOut_andThen fun b => ?_
    rw [wide_modify b (wide_pushSgmt c)]
    exact wideOut_andThen fun b => ih _ b

theorem wide_sgmtConstraint (asserts : Bool) (i j : ℕ) (c : Constraint ℝ) (b : Builder ℝ) :
    (Builder.wide b).sgmtConstraint asserts i j c.wide = wideOut (b.sgmtConstraint asserts i j c) := by
  unfold Builder.sgmtConstraint
  split
  · rfl
  · rw [wide_newWpts, wide_modify _ (wide_pushWpt c)]
    exact wideOut_andThen fun b => wide_sgmtLoop c _ _ b

theorem wide_wptGuess (i : ℕ) (p : Pose2 ℝ) (b : Builder ℝ) :
    (Builder.wide b).wptInitialGuessPoint i (Pose2.wide p) = wideOut (b.wptInitialGuessPoint i p) := by
  unfold Builder.wptInitialGuessPoint
  rw [wide_newWpts]
  generalize b.newWpts i = b
  dsimp only
  have hg : (Builder.wide b).initialGuessPoints[i]? =
      b.initialGuessPoints[i]?.map (·.map Pose2.wide) := List.getElem?_map ..
  rw [hg]
  rcases b.initialGuessPoints[i]? with _ | (_ | ⟨q, qs⟩)
  · rfl
  · rfl
  · simp [wideOut, Builder.wide, List.map_set, List.map_dropLast]

theorem wide_sgmtGuess (i : ℕ) (ps : List (Pose2 ℝ)) (b : Builder ℝ) :
    (Builder.wide b).sgmtInitialGuessPoints i (ps.map Pose2.wide) =
      wideOut (b.sgmtInitialGuessPoints i ps) := by
  unfold Builder.sgmtInitialGuessPoints
  dsimp only
  rw [wide_newWpts]
  generalize b.newWpts (wadd i 1) = b
  generalize wadd i 1 = i
  have hg : (Builder.wide b).initialGuessPoints[i]? =
      b.initialGuessPoints[i]?.map (·.map Pose2.wide) := List.getElem?_map ..
  rw [hg]
  rcases b.initialGuessPoints[i]? with _ | qs
  · rfl
  · simp [wideOut, Builder.wide, List.map_set]

/-- A constraint creation with finite data. -/
def wideCon (r : Res (Constraint ℝ)) : Res (Constraint Wide) := r.map Constraint.wide

theorem wide_recordAll {rec : Constraint ℝ → Builder ℝ → Out ℝ}
    {rec' : Constraint Wide → Builder Wide → Out Wide}
    (h : ∀ c b, rec' c.wide (Builder.wide b) = wideOut (rec c b))
    (l : List (Res (Constraint ℝ))) (b : Builder ℝ) :
    recordAll rec' (l.map wideCon) (Builder.wide b) = wideOut (recordAll rec l b) := by
  induction l generalizing b with
  | nil => rfl
  | cons r l ih =>
    cases r with
    | error e => rfl
    | ok c =>
      rw [List.map_cons]
      change Builder.andThen (rec' c.wide (Builder.wide b)) _ = _
      rw [h]
      exact wideOut_andThen fun b => ih b

theorem fin_le (a b : ℝ) : Dbl.le (fin a) (fin b) = Dbl.le a b := by
  change (Wide.lt (fin a) (fin b) || Wide.eq (fin a) (fin b)) = decide (a ≤ b)
  simp [Wide.lt, Wide.eq, ← Bool.decide_or, le_iff_lt_or_eq]

theorem wide_assert (asserts : Bool) (d : ℝ) (c : Constraint ℝ) :
    Constraint.assertNonneg asserts (fin d) c.wide = wideCon (Constraint.assertNonneg asserts d c) := by
  unfold Constraint.assertNonneg
  rw [show (Num.lit 0 : Wide) = fin (Num.lit 0 : ℝ) from rfl, fin_le]
  split <;> rfl

theorem wide_bumperEdges (asserts : Bool) (bum : List (Translation2 ℝ)) (d : ℝ) (p : Translation2 ℝ) :
    bumperEdges asserts (bum.map Translation2.wide) (fin d) p.wide =
      (bumperEdges asserts bum d p).map wideCon := by
  have key : ∀ i j, (do
      let s ← vat (bum.map Translation2.wide) i
      let e ← vat (bum.map Translation2.wide) j
      Constraint.mkLinePoint asserts s e p.wide (fin d)) =
      wideCon (do
        let s ← vat bum i
        let e ← vat bum j
        Constraint.mkLinePoint asserts s e p d) := by
    intro i j
    rw [vat_map', vat_map']
    rcases vat bum i with e | s
    · rfl
    rcases vat bum j with e | e
    · rfl
    exact wide_assert asserts d (.linePoint s e p d)
  unfold bumperEdges
  simp only [List.length_map, key]
  split
  · rfl
  · simp only [List.map_append, List.map_map]
    congr 1
    split <;> rfl

theorem wide_obstacleEdges (asserts : Bool) (n : ℕ) (obs : List (Translation2 ℝ)) (d : ℝ)
    (r : Translation2 ℝ) :
    obstacleEdges asserts n (obs.map Translation2.wide) (fin d) r.wide =
      (obstacleEdges asserts n obs d r).map wideCon := by
  have key : ∀ i j, (do
      let s ← vat (obs.map Translation2.wide) i
      let e ← vat (obs.map Translation2.wide) j
      Constraint.mkPointLine asserts r.wide s e (fin d)) =
      wideCon (do
        let s ← vat obs i
        let e ← vat obs j
        Constraint.mkPointLine asserts r s e d) := by
    intro i j
    rw [vat_map', vat_map']
    rcases vat obs i with e | s
    · rfl
    rcases vat obs j with e | e
    · rfl
    exact wide_assert asserts d (.pointLine r s e d)
  have key1 : (do
      let p ← vat (obs.map Translation2.wide) 0
      Constraint.mkPointPoint asserts r.wide p (fin d)) =
      wideCon (do
        let p ← vat obs 0
        Constraint.mkPointPoint asserts r p d) := by
    rw [vat_map']
    rcases vat obs 0 with e | s
    · rfl
    exact wide_assert asserts d (.pointPoint r s d)
  unfold obstacleEdges
  simp only [List.length_map, key, key1]
  split
  · simp only [List.map_append, List.map_map]
    congr 1
    split <;> rfl
  · rfl

theorem wide_obstacleConstraints (asserts : Bool) (obs : Obstacle ℝ) (bums : List (Obstacle ℝ)) :
    obstacleConstraints asserts (Obstacle.wide obs) (bums.map Obstacle.wide) =
      (obstacleConstraints asserts obs bums).map wideCon := by
  induction bums with
  | nil => rfl
  | cons bum rest ih =>
    have key1 : ∀ d, (do
        let r ← vat (bum.points.map Translation2.wide) 0
        let p ← vat (obs.points.map Translation2.wide) 0
        Constraint.mkPointPoint asserts r p (fin d)) =
        wideCon (do
          let r ← vat bum.points 0
          let p ← vat obs.points 0
          Constraint.mkPointPoint asserts r p d) := by
      intro d
      rw [vat_map', vat_map']
      rcases vat bum.points 0 with e | r
      · rfl
      rcases vat obs.points 0 with e | p
      · rfl
      exact wide_assert asserts d (.pointPoint r p d)
    rw [List.map_cons, obstacleConstraints, obstacleConstraints, ih]
    simp only [Obstacle.wide, List.length_map, fin_add, key1]
    split
    · rfl
    · simp only [List.map_append, List.map_flatten, List.map_map]
      congr 2
      · congr 1
        exact List.map_congr_left fun p _ => wide_bumperEdges asserts _ _ p
      · congr 1
        exact List.map_congr_left fun p _ => wide_obstacleEdges asserts _ _ _ p

theorem wide_exec (asserts : Bool) (op : Op ℝ) (b : Builder ℝ) :
    (Op.wide op).exec asserts (Builder.wide b) = wideOut (op.exec asserts b) := by
  cases op with
  | setDrivetrain d => rfl
  | poseWpt i x y a =>
    change Builder.andThen ((Builder.wide b).wptConstraint i (Constraint.wide (.poseEquality x y a))) _ = _
    rw [wide_wptConstraint]
    exact wideOut_andThen fun b => wide_wptGuess i (.ofXYHeading x y a) b
  | translationWpt i x y a =>
    change Builder.andThen
      ((Builder.wide b).wptConstraint i (Constraint.wide (.translationEquality ⟨x, y⟩))) _ = _
    rw [wide_wptConstraint]
    exact wideOut_andThen fun b => wide_wptGuess i (.ofXYHeading x y a) b
  | wptInitialGuessPoint i p => exact wide_wptGuess i p b
  | sgmtInitialGuessPoints i ps => exact wide_sgmtGuess i ps b
  | addBumpers o => simp [Op.wide, Op.exec, Builder.addBumpers, wideOut, Builder.wide]
  | wptObstacle i o =>
    simp only [Op.wide, Op.exec, wptObstacle]
    change recordAll _ (obstacleConstraints asserts (Obstacle.wide o) (b.bumpers.map Obstacle.wide)) _ = _
    rw [wide_obstacleConstraints]
    exact wide_recordAll (fun c b => wide_wptConstraint i c b) _ b
  | sgmtObstacle i j o =>
    simp only [Op.wide, Op.exec, sgmtObstacle]
    change recordAll _ (obstacleConstraints asserts (Obstacle.wide o) (b.bumpers.map Obstacle.wide)) _ = _
    rw [wide_obstacleConstraints]
    exact wide_recordAll (fun c b => wide_sgmtConstraint asserts i j c b) _ b
  | wptConstraint i c => exact wide_wptConstraint i c b
  | sgmtConstraint i j c => exact wide_sgmtConstraint asserts i j c b
  | controlIntervalCounts cs => rfl
  | addIntermediateCallback k => rfl

theorem wide_run (asserts : Bool) (ops : List (Op ℝ)) (b : Builder ℝ) :
    run asserts (ops.map Op.wide) (Builder.wide b) = Builder.wide (run asserts ops b) := by
  induction ops generalizing b with
  | nil => rfl
  | cons op ops ih =>
    change run asserts (ops.map Op.wide) ((Op.wide op).exec asserts (Builder.wide b)).1 = _
    rw [wide_exec]
    exact ih _

/-! ### the initial guess -/

theorem wide_linspace (a b : ℝ) (n : ℕ) :
    linspace (fin a) (fin b) n = (linspace a b n).map fin := by
  unfold linspace
  simp only [List.map_map]
  refine List.map_congr_left fun i hi => ?_
  have hn : n ≠ 0 := by rw [List.mem_range'_1] at hi; omega
  have h : ((n : ℤ) : ℝ) ≠ 0 := by exact_mod_cast hn
  change fin a + fin ((i : ℤ) : ℝ) * ((fin b - fin a) / fin ((n : ℤ) : ℝ)) = _
  rw [fin_sub, fin_div, if_neg h]
  rfl

theorem wide_angleLinspace (a b : ℝ) (n : ℕ) :
    angleLinspace (fin a) (fin b) n = (angleLinspace a b n).map fin := by
  have hd : ∀ x : ℝ, (fin x / fin (2 * Real.pi) : Wide) = fin (x / (2 * Real.pi)) := fun x => by
    rw [fin_div, if_neg (by positivity)]
  have h2 : ((Num.lit 2 : Wide) * Dbl.pi) = fin (2 * Real.pi) := by
    change fin (((2 : ℚ) : ℝ) * Real.pi) = _
    norm_num
  have h2' : ((Num.lit 2 : ℝ) * Dbl.pi) = 2 * Real.pi := by
    change (((2 : ℚ) : ℝ) * Real.pi) = _
    norm_num
  have hpi : (Dbl.pi : Wide) = fin Real.pi := rfl
  have htr : ∀ x : ℝ, Dbl.trunc (fin x) = fin (Dbl.trunc x) := fun _ => rfl
  unfold angleLinspace
  simp only [h2, h2']
  simp only [hpi, fin_sub, fin_neg, hd, htr, fin_mul, fin_add, wide_linspace]
  rfl

/-- A piece of a guess with finite data. -/
def widePiece (p : List ℝ × List ℝ × List ℝ × List ℝ) :
    List Wide × List Wide × List Wide × List Wide :=
  (p.1.map fin, p.2.1.map fin, p.2.2.1.map fin, p.2.2.2.map fin)

theorem wide_guessPiece (p q : Pose2 ℝ) (n : ℕ) :
    guessPiece (Pose2.wide p) (Pose2.wide q) n = widePiece (guessPiece p q n) := by
  have hr : ∀ r : Rotation2 ℝ, (Rotation2.wide r).radians = fin r.radians := fun r => rfl
  unfold guessPiece widePiece
  simp only [Pose2.wide, Pose2.x, Pose2.y, Translation2.wide, hr, wide_linspace, wide_angleLinspace,
    List.map_map]
  rfl

theorem mapM_map {α β γ : Type} (g : β → γ) (f : α → Res β) (f' : α → Res γ) (l : List α)
    (h : ∀ a ∈ l, f' a = (f a).map g) : l.mapM f' = (l.mapM f).map (List.map g) := by
  induction l with
  | nil => rfl
  | cons a l ih =>
    rw [List.mapM_cons, List.mapM_cons, h a List.mem_cons_self,
      ih fun a ha => h a (List.mem_cons_of_mem _ ha)]
    rcases f a with e | b
    · rfl
    rcases l.mapM f with e | bs <;> rfl

theorem vback_map {α β : Type} (f : α → β) (l : List α) : vback (l.map f) = (vback l).map f := by
  unfold vback
  rw [List.getLast?_map]
  cases l.getLast? <;> rfl

theorem vfront_map {α β : Type} (f : α → β) (l : List α) : vfront (l.map f) = (vfront l).map f := by
  unfold vfront
  rw [List.head?_map]
  cases l.head? <;> rfl

theorem bind_map' {α α' β β' : Type} {f : α → α'} {g : β → β'} {x : Res α} {k : α → Res β}
    {k' : α' → Res β'} (h : ∀ a, k' (f a) = (k a).map g) : (x.map f >>= k') = (x >>= k).map g := by
  rcases x with e | a
  · rfl
  · exact h a

theorem bind_same {α β β' : Type} {g : β → β'} {x : Res α} {k : α → Res β}
    {k' : α → Res β'} (h : ∀ a, x = .ok a → k' a = (k a).map g) : (x >>= k') = (x >>= k).map g := by
  rcases x with e | a
  · rfl
  · exact h a rfl

theorem wide_guessSegment (g : List (List (Pose2 ℝ))) (N : List ℕ) (w : ℕ) :
    guessSegment (g.map (·.map Pose2.wide)) N w = (guessSegment g N w).map (List.map widePiece) := by
  unfold guessSegment
  refine bind_same fun n _ => ?_
  rw [vat_map']
  refine bind_map' fun cur => ?_
  simp only [List.length_map]
  split
  · rfl
  rw [vat_map']
  refine bind_map' fun prev => ?_
  rw [vback_map]
  refine bind_map' fun a => ?_
  rw [vfront_map]
  refine bind_map' fun c => ?_
  rw [mapM_map widePiece (fun i => do
    let p ← vat cur (i - 1)
    let q ← vat cur i
    return guessPiece p q (n / cur.length))]
  · refine bind_map' fun middle => ?_
    rw [wide_guessPiece]
    split
    · rw [vat_map']
      refine bind_map' fun p => ?_
      rw [vback_map]
      refine bind_map' fun q => ?_
      rw [wide_guessPiece]
      simp [pure, Except.pure, Except.map]
    · rfl
  · intro i _
    rw [vat_map']
    refine bind_map' fun p => ?_
    rw [vat_map']
    refine bind_map' fun q => ?_
    rw [wide_guessPiece]
    rfl

theorem wide_guess (g : List (List (Pose2 ℝ))) (N : List ℕ) :
    generateLinearInitialGuess (g.map (·.map Pose2.wide)) N =
      (generateLinearInitialGuess g N).map SwerveSolution.wide := by
  unfold generateLinearInitialGuess
  dsimp only
  refine bind_same fun S _ => ?_
  rw [vfront_map]
  refine bind_map' fun f => ?_
  rw [vfront_map]
  refine bind_map' fun p0 => ?_
  rw [mapM_map (List.map widePiece) (guessSegment g N) _ _ fun w _ => wide_guessSegment g N w]
  refine bind_map' fun segs => ?_
  have hd : List.replicate S (Dbl.ofNat (N.length + 1) * Num.lit 5 / Dbl.ofNat S : Wide) =
      List.replicate S (fin (Dbl.ofNat (N.length + 1) * Num.lit 5 / Dbl.ofNat S : ℝ)) := by
    rcases Nat.eq_zero_or_pos S with rfl | h
    · rfl
    · have hS : ((S : ℤ) : ℝ) ≠ 0 := by exact_mod_cast h.ne'
      congr 1
      change fin _ / fin ((S : ℤ) : ℝ) = _
      rw [fin_div, if_neg hS]
      rfl
  simp only [hd, pure, Except.pure, Except.map, SwerveSolution.wide, List.map_replicate, List.map_cons,
    List.map_flatten, List.map_map, List.map_nil, Function.comp_def]
  rfl

theorem getD_fin (l : List ℝ) (n : ℕ) : (l.map fin).getD n (Num.lit 0) = fin (l.getD n (Num.lit 0)) := by
  simp only [List.getD_eq_getElem?_getD, List.getElem?_map]
  cases l[n]? <;> rfl

/-! ### start values -/

theorem wide_dtValues (dts : List (ℕ × ℕ)) (h : ∀ x ∈ dts, 0 < x.2) (v : ℕ → ℝ) (j : ℕ) :
    dtValues dts (fun j => fin (v j)) j = fin (dtValues dts v j) := by
  induction dts generalizing v with
  | nil => rfl
  | cons x dts ih =>
    unfold dtValues at ih ⊢
    rw [List.foldl_cons, List.foldl_cons, ← ih fun y hy => h y (List.mem_cons_of_mem _ hy)]
    refine congrFun (congrArg (fun v => List.foldl _ v dts) ?_) j
    funext j
    have hx : ((x.2 : ℤ) : ℝ) ≠ 0 := by exact_mod_cast (h x List.mem_cons_self).ne'
    split
    · change fin _ / fin ((x.2 : ℤ) : ℝ) = _
      rw [fin_div, if_neg hx]
      rfl
    · rfl

section
variable {S : ℕ} {sol : SwerveSolution ℝ}

theorem wide_guessDiff {f' : ℕ → Wide} {f : ℕ → ℝ} (hdt : ∀ n, n + 1 < S → sol.dt.getD (n + 1) 0 ≠ 0)
    (hf : ∀ n, n < S → f' n = fin (f n)) (n : ℕ) (hn : n < S) :
    guessDiff f' (SwerveSolution.wide sol).dt n = fin (guessDiff f sol.dt n) := by
  cases n with
  | zero => rfl
  | succ n =>
    have h : sol.dt.getD (n + 1) (Num.lit 0 : ℝ) ≠ 0 := by
      simpa using hdt n hn
    rw [guessDiff, guessDiff, hf _ hn, hf n (by omega), fin_sub]
    change fin _ / (sol.dt.map fin).getD (n + 1) (Num.lit 0) = _
    rw [getD_fin, fin_div, if_neg h, real_div, real_sub]

theorem wide_guessOmega (hdt : ∀ n, n + 1 < S → sol.dt.getD (n + 1) 0 ≠ 0) (n : ℕ) (hn : n < S) :
    guessOmega (SwerveSolution.wide sol) n = fin (guessOmega sol n) := by
  cases n with
  | zero => rfl
  | succ n =>
    have h : sol.dt.getD (n + 1) (Num.lit 0 : ℝ) ≠ 0 := by
      simpa using hdt n hn
    simp only [guessOmega, SwerveSolution.wide, getD_fin]
    change fin _ / fin _ = _
    rw [fin_div, if_neg h, real_div]
    congr 3

theorem wide_guessComp (hdt : ∀ n, n + 1 < S → sol.dt.getD (n + 1) 0 ≠ 0) (n c : ℕ) (hn : n < S) :
    guessComp (SwerveSolution.wide sol) n c = fin (guessComp sol n c) := by
  have hx : ∀ n, n < S → (SwerveSolution.wide sol).x.getD n (Num.lit 0) = fin (sol.x.getD n (Num.lit 0)) :=
    fun n _ => getD_fin ..
  have hy : ∀ n, n < S → (SwerveSolution.wide sol).y.getD n (Num.lit 0) = fin (sol.y.getD n (Num.lit 0)) :=
    fun n _ => getD_fin ..
  rcases c with _ | _ | _ | _ | _ | _ | _ | _ | _ | _ | c
  · exact hx n hn
  · exact hy n hn
  · exact getD_fin ..
  · exact getD_fin ..
  · exact wide_guessDiff hdt hx n hn
  · exact wide_guessDiff hdt hy n hn
  · exact wide_guessOmega hdt n hn
  · exact wide_guessDiff hdt (wide_guessDiff hdt hx) n hn
  · exact wide_guessDiff hdt (wide_guessDiff hdt hy) n hn
  · exact wide_guessDiff hdt (wide_guessOmega hdt) n hn
  · rfl

theorem wide_guessValues (hdt : ∀ n, n + 1 < S → sol.dt.getD (n + 1) 0 ≠ 0) (m v : ℕ) {old' : ℕ → Wide}
    {old : ℕ → ℝ} (ho : old' v = fin (old v)) :
    guessValues m (SwerveSolution.wide sol) old' S S v = fin (guessValues m sol old S S v) := by
  unfold guessValues
  split
  · next h => exact wide_guessComp hdt _ _ (by omega)
  · exact ho
end

end Trajopt
