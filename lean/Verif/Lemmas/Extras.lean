import Verif.Lemmas.Builder

/-! # What only the setters change -/

set_option autoImplicit false

namespace Trajopt

open Builder

variable {D : Type}

/-- Bumpers, drivetrain and callbacks. -/
def extras (b : Builder D) : List (Obstacle D) × Option (SwerveDrivetrain D) × List ℕ :=
  (b.bumpers, b.path.drivetrain, b.path.callbacks)

variable [Dbl D]

omit [Dbl D] in
theorem andThen_extras {o : Out D} {f : Builder D → Out D} (hf : ∀ b, extras (f b).1 = extras b) :
    extras (andThen o f).1 = extras o.1 := by
  obtain ⟨b, e⟩ := o
  cases e with
  | none => exact hf b
  | some e => rfl

theorem newWpts_extras (k : ℕ) (b : Builder D) : extras (b.newWpts k) = extras b := by
  have : ∀ (n : ℕ) (i : ℤ) (b : Builder D), extras (newWptsLoop n i b) = extras b := by
    intro n
    induction n with
    | zero => intro i b; rfl
    | succ n ih => intro i b; rw [newWptsLoop, ih]; rfl
  unfold newWpts
  dsimp only
  split
  · exact this _ _ _
  · rfl

omit [Dbl D] in
theorem modifyWpt_extras (i : ℕ) (f : Waypoint D → Waypoint D) (b : Builder D) :
    extras (b.modifyWpt i f).1 = extras b := by
  rw [modifyWpt_eq]
  split <;> rfl

theorem wptConstraint_extras (i : ℕ) (c : Constraint D) (b : Builder D) :
    extras (b.wptConstraint i c).1 = extras b := by
  rw [wptConstraint, modifyWpt_extras, newWpts_extras]

theorem sgmtConstraint_extras (asserts : Bool) (i j : ℕ) (c : Constraint D) (b : Builder D) :
    extras (b.sgmtConstraint asserts i j c).1 = extras b := by
  have hloop : ∀ (n i : ℕ) (b : Builder D), extras (sgmtLoop c n i b).1 = extras b := by
    intro n
    induction n with
    | zero => intro i b; rfl
    | succ n ih =>
      intro i b
      rw [sgmtLoop, andThen_extras, modifyWpt_extras]
      intro b
      rw [andThen_extras (ih _), modifyWpt_extras]
  unfold sgmtConstraint
  split
  · rfl
  · rw [andThen_extras (hloop _ _), modifyWpt_extras, newWpts_extras]

omit [Dbl D] in
theorem recordAll_extras {record : Constraint D → Builder D → Out D}
    (hr : ∀ c b, extras (record c b).1 = extras b) (l : List (Res (Constraint D)))
    (b : Builder D) : extras (recordAll record l b).1 = extras b := by
  induction l generalizing b with
  | nil => rfl
  | cons x l ih =>
    cases x with
    | error e => rfl
    | ok c => rw [recordAll, andThen_extras ih, hr]

theorem guess_extras (i : ℕ) (p : Pose2 D) (b : Builder D) :
    extras (b.wptInitialGuessPoint i p).1 = extras b := by
  unfold wptInitialGuessPoint
  dsimp only
  split <;> exact newWpts_extras _ _

theorem sgmtGuess_extras (i : ℕ) (ps : List (Pose2 D)) (b : Builder D) :
    extras (b.sgmtInitialGuessPoints i ps).1 = extras b := by
  unfold sgmtInitialGuessPoints
  dsimp only
  split <;> exact newWpts_extras _ _

/-- What a call makes of them. -/
def afterOp (x : List (Obstacle D) × Option (SwerveDrivetrain D) × List ℕ) :
    Op D → List (Obstacle D) × Option (SwerveDrivetrain D) × List ℕ
  | .addBumpers o => (x.1 ++ [o], x.2.1, x.2.2)
  | .setDrivetrain d => (x.1, some d, x.2.2)
  | .addIntermediateCallback k => (x.1, x.2.1, x.2.2 ++ [k])
  | _ => x

theorem exec_extras (asserts : Bool) (op : Op D) (b : Builder D) :
    extras (op.exec asserts b).1 = afterOp (extras b) op := by
  cases op with
  | addBumpers o => rfl
  | setDrivetrain d => rfl
  | controlIntervalCounts cs => rfl
  | addIntermediateCallback k => rfl
  | wptConstraint i c => rw [Op.exec, wptConstraint_extras]; rfl
  | sgmtConstraint i j c => rw [Op.exec, sgmtConstraint_extras]; rfl
  | wptObstacle i o => rw [Op.exec, wptObstacle, recordAll_extras (wptConstraint_extras i)]; rfl
  | sgmtObstacle i j o =>
    rw [Op.exec, sgmtObstacle, recordAll_extras (sgmtConstraint_extras asserts i j)]; rfl
  | wptInitialGuessPoint i p => rw [Op.exec, guess_extras]; rfl
  | poseWpt i x y h =>
    rw [Op.exec, poseWpt, andThen_extras (guess_extras _ _), wptConstraint_extras]; rfl
  | translationWpt i x y h =>
    rw [Op.exec, translationWpt, andThen_extras (guess_extras _ _), wptConstraint_extras]; rfl
  | sgmtInitialGuessPoints i ps => rw [Op.exec, sgmtGuess_extras]; rfl

theorem run_extras (asserts : Bool) (ops : List (Op D)) (b : Builder D) :
    extras (run asserts ops b) = ops.foldl afterOp (extras b) := by
  induction ops generalizing b with
  | nil => rfl
  | cons op ops ih =>
    change extras (run asserts ops (op.exec asserts b).1) = _
    rw [ih, exec_extras]
    rfl

end Trajopt
