import Verif.Lemmas.Serde
import Verif.Model.Ieee

/-!
# C107: saving and loading
-/

set_option autoImplicit false

namespace Trajopt.Props

open Trajopt Spec Serde

variable {D : Type}

theorem getTrajectory_object (l : List (String × Json D)) (t : List (RustSample D)) :
    getTrajectory (.object l) = .ok t ↔ Once l "samples" fun j => getVec getSample j = .ok t := by
  simp only [getTrajectory, bind_ok, need_ok]
  rw [← fold_none]
  have : (trajectoryEntry (D := D)) = slotStep "samples" (getVec getSample) := rfl
  rw [this]
  constructor
  · rintro ⟨_, h, rfl⟩; exact h
  · intro h; exact ⟨_, h, rfl⟩

theorem getTrajectory_iff (j : Json D) (t : List (RustSample D)) : getTrajectory j = .ok t ↔ IsTrajectory t j := by
  cases j with
  | object l =>
    rw [getTrajectory_object]
    simp [IsTrajectory, IsStruct, getVec_iff getSample_iff]
  | array l =>
    simp only [getTrajectory, bind_ok, nth_ok, full_ok, IsTrajectory, IsStruct]
    iterate 2 (rcases l with _ | ⟨j, l⟩; · simp [getVec_iff getSample_iff])
    simp
  | _ => simp [getTrajectory, IsTrajectory, IsStruct]

/-- C107: what is read from a document is what it describes; anything else is an error. -/
theorem C107_read (j : Json D) :
    (∀ m, getModule j = .ok m ↔ IsModule m j) ∧ (∀ d, getDrivetrain j = .ok d ↔ IsDrivetrain d j) ∧
    (∀ p, getPose j = .ok p ↔ IsPose p j) ∧ (∀ s, getSample j = .ok s ↔ IsSample s j) ∧
    ∀ t, getTrajectory j = .ok t ↔ IsTrajectory t j :=
  ⟨getModule_iff j, getDrivetrain_iff j, getPose_iff j, getSample_iff j, getTrajectory_iff j⟩

/-! ### What is written -/

theorem number_put (finite : D → Bool) (x y : D) : IsNumber y (putNumber finite x) ↔ y = x ∧ finite x = true := by
  by_cases h : finite x <;> simp [IsNumber, putNumber, h, eq_comm]

theorem list_put {α : Type} {P : α → Json D → Prop} {put : α → Json D} {Q : α → Prop}
    (h : ∀ x y, P y (put x) ↔ y = x ∧ Q x) (l r : List α) :
    IsList P r (.array (l.map put)) ↔ r = l ∧ ∀ x ∈ l, Q x := by
  simp only [IsList, Json.array.injEq, exists_eq_left']
  induction l generalizing r with
  | nil => cases r <;> simp
  | cons a l ih =>
    cases r with
    | nil => simp
    | cons b r =>
      simp only [List.map_cons, List.forall₂_cons, h, ih, List.cons.injEq, List.mem_cons, forall_eq_or_imp]
      tauto

theorem numbers_put (finite : D → Bool) (l r : List D) :
    IsList IsNumber r (putNumbers finite l) ↔ r = l ∧ ∀ x ∈ l, finite x = true :=
  list_put (fun x y => number_put finite x y) l r

theorem module_put (finite : D → Bool) (x y : RustModule D) :
    IsModule y (putModule finite x) ↔ y = x ∧ ∀ n ∈ moduleNumbers x, finite n = true := by
  obtain ⟨a1, a2, a3, a4, a5⟩ := x
  obtain ⟨b1, b2, b3, b4, b5⟩ := y
  simp [IsModule, IsStruct, putModule, Once, number_put, moduleNumbers]
  tauto

theorem drivetrain_put (finite : D → Bool) (x y : RustDrivetrain D) :
    IsDrivetrain y (putDrivetrain finite x) ↔ y = x ∧ ∀ n ∈ drivetrainNumbers x, finite n = true := by
  obtain ⟨a1, a2, a3⟩ := x
  obtain ⟨b1, b2, b3⟩ := y
  have := list_put (module_put finite) a3 b3
  simp [IsDrivetrain, IsStruct, putDrivetrain, Once, number_put, drivetrainNumbers, this]
  tauto

theorem pose_put (finite : D → Bool) (x y : RustPose D) :
    IsPose y (putPose finite x) ↔ y = x ∧ ∀ n ∈ poseNumbers x, finite n = true := by
  obtain ⟨a1, a2, a3⟩ := x
  obtain ⟨b1, b2, b3⟩ := y
  simp [IsPose, IsStruct, putPose, Once, number_put, poseNumbers]
  tauto

theorem sample_put (finite : D → Bool) (x y : RustSample D) :
    IsSample y (putSample finite x) ↔ y = x ∧ ∀ n ∈ sampleNumbers x, finite n = true := by
  obtain ⟨a1, a2, a3, a4, a5, a6, a7, a8, a9⟩ := x
  obtain ⟨b1, b2, b3, b4, b5, b6, b7, b8, b9⟩ := y
  simp [IsSample, IsStruct, putSample, Once, number_put, numbers_put, sampleNumbers, or_imp, forall_and]
  tauto

theorem trajectory_put (finite : D → Bool) (x y : List (RustSample D)) :
    IsTrajectory y (putTrajectory finite x) ↔ y = x ∧ ∀ s ∈ x, ∀ n ∈ sampleNumbers s, finite n = true := by
  have := list_put (sample_put finite) x y
  simp [IsTrajectory, IsStruct, putTrajectory, Once, this]

/-- C107, what holds: what was saved is loaded as it was exactly if all its numbers are finite; nothing else is
ever loaded.  Missing: infinities and NaN, which are saved as `null`. -/
theorem C107_saved_partial (finite : D → Bool) :
    (∀ x y : RustModule D, getModule (putModule finite x) = .ok y ↔
      y = x ∧ ∀ n ∈ moduleNumbers x, finite n = true) ∧
    (∀ x y : RustDrivetrain D, getDrivetrain (putDrivetrain finite x) = .ok y ↔
      y = x ∧ ∀ n ∈ drivetrainNumbers x, finite n = true) ∧
    (∀ x y : RustPose D, getPose (putPose finite x) = .ok y ↔
      y = x ∧ ∀ n ∈ poseNumbers x, finite n = true) ∧
    (∀ x y : RustSample D, getSample (putSample finite x) = .ok y ↔
      y = x ∧ ∀ n ∈ sampleNumbers x, finite n = true) ∧
    (∀ x y : List (RustSample D), getTrajectory (putTrajectory finite x) = .ok y ↔
      y = x ∧ ∀ s ∈ x, ∀ n ∈ sampleNumbers s, finite n = true) :=
  ⟨fun x y => (getModule_iff _ _).trans (module_put finite x y),
    fun x y => (getDrivetrain_iff _ _).trans (drivetrain_put finite x y),
    fun x y => (getPose_iff _ _).trans (pose_put finite x y),
    fun x y => (getSample_iff _ _).trans (sample_put finite x y),
    fun x y => (getTrajectory_iff _ _).trans (trajectory_put finite x y)⟩

/-- A drivetrain of integers, saved and loaded. -/
example : getDrivetrain (putDrivetrain (fun _ => true) (⟨45, 6, [⟨1, -1, 2, 70, 2⟩, ⟨1, 1, 2, 70, 2⟩]⟩ : RustDrivetrain Int))
    = .ok ⟨45, 6, [⟨1, -1, 2, 70, 2⟩, ⟨1, 1, 2, 70, 2⟩]⟩ :=
  ((C107_saved_partial _).2.1 _ _).mpr ⟨rfl, fun _ _ => rfl⟩

open Classical in
/-- C107 is false as stated: a trajectory with a time stamp that is NaN can be saved but not loaded. -/
theorem C107_refuted (z : Ieee) : ∀ t,
    getTrajectory (putTrajectory (fun x : Ieee => decide (∃ s m h, x = .fin s m h))
      [⟨.nan, z, z, z, z, z, z, [], []⟩]) ≠ .ok t := by
  intro t h
  have := (((C107_saved_partial _).2.2.2.2 _ _).mp h).2 _ List.mem_cons_self .nan (by simp [sampleNumbers])
  simp at this

/-! ### Order -/

theorem once_perm {l l' : List (String × Json D)} {name : String} {P : Json D → Prop}
    (h : (l.filter fun e => e.1 = name).Perm (l'.filter fun e => e.1 = name)) :
    Once l name P ↔ Once l' name P := by
  constructor
  · rintro ⟨j, hj, hl⟩
    rw [hl] at h
    exact ⟨j, hj, List.singleton_perm.mp h |>.symm ▸ rfl⟩
  · rintro ⟨j, hj, hl⟩
    rw [hl] at h
    exact ⟨j, hj, List.perm_singleton.mp h⟩

theorem struct_order {fields : List (String × (Json D → Prop))} {l l' : List (String × Json D)}
    (h : ∀ f ∈ fields, (l.filter fun e => e.1 = f.1).Perm (l'.filter fun e => e.1 = f.1)) :
    IsStruct fields (.object l) ↔ IsStruct fields (.object l') := by
  simp only [IsStruct, Json.object.injEq, exists_eq_left', reduceCtorEq, false_and, exists_false, or_false]
  exact forall₂_congr fun f hf => once_perm (h f hf)

/-- C107: fields may come in any order, and entries with other names are skipped, whatever they hold. -/
theorem C107_order (l l' extra : List (String × Json D)) (hp : l'.Perm (l ++ extra)) :
    ((∀ e ∈ extra, e.1 ∉ ["x", "y", "wheel_radius", "wheel_max_angular_velocity", "wheel_max_torque"]) →
      ∀ m, getModule (.object l') = .ok m ↔ getModule (.object l) = .ok m) ∧
    ((∀ e ∈ extra, e.1 ∉ ["mass", "moi", "modules"]) →
      ∀ d, getDrivetrain (.object l') = .ok d ↔ getDrivetrain (.object l) = .ok d) ∧
    ((∀ e ∈ extra, e.1 ∉ ["x", "y", "heading"]) →
      ∀ p, getPose (.object l') = .ok p ↔ getPose (.object l) = .ok p) ∧
    ((∀ e ∈ extra, e.1 ∉ ["timestamp", "x", "y", "heading", "velocity_x", "velocity_y", "angular_velocity",
        "module_forces_x", "module_forces_y"]) →
      ∀ s, getSample (.object l') = .ok s ↔ getSample (.object l) = .ok s) ∧
    ((∀ e ∈ extra, e.1 ≠ "samples") →
      ∀ t, getTrajectory (.object l') = .ok t ↔ getTrajectory (.object l) = .ok t) := by
  have key : ∀ name, (∀ e ∈ extra, e.1 ≠ name) →
      (l'.filter fun e => e.1 = name).Perm (l.filter fun e => e.1 = name) := by
    intro name h
    have h0 : (extra.filter fun e => e.1 = name) = [] := by simpa using h
    have := hp.filter fun e => e.1 = name
    rwa [List.filter_append, h0, List.append_nil] at this
  have all : ∀ (fields : List (String × (Json D → Prop))) (names : List String), fields.map Prod.fst = names →
      (∀ e ∈ extra, e.1 ∉ names) → (IsStruct fields (.object l') ↔ IsStruct fields (.object l)) := by
    intro fields names hn h
    refine struct_order fun f hf => key _ fun e he hef => h e he ?_
    rw [← hn, hef]
    exact List.mem_map_of_mem hf
  refine ⟨fun h m => ?_, fun h m => ?_, fun h m => ?_, fun h m => ?_, fun h m => ?_⟩
  · simp only [getModule_iff, IsModule]; exact all _ _ rfl h
  · simp only [getDrivetrain_iff, IsDrivetrain]; exact all _ _ rfl h
  · simp only [getPose_iff, IsPose]; exact all _ _ rfl h
  · simp only [getSample_iff, IsSample]; exact all _ _ rfl h
  · simp only [getTrajectory_iff, IsTrajectory]
    exact all _ ["samples"] rfl fun e he => by simpa using h e he

/-- A pose whose fields come in another order, with a remark. -/
example : getPose (.object [("remark", .null), ("heading", .number 3), ("y", .number 2), ("x", .number (1 : Int))])
    = .ok ⟨1, 2, 3⟩ :=
  ((C107_order [("x", .number (1 : Int)), ("y", .number 2), ("heading", .number 3)] _ [("remark", .null)]
    (List.reverse_perm _)).2.2.1 (by simp) _).mpr rfl

end Trajopt.Props
