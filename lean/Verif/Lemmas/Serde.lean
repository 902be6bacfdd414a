import Verif.Spec.Serde
import Mathlib.Tactic.Tauto
import Mathlib.Tactic.SplitIfs

/-!
# Reading documents, field by field
-/

set_option autoImplicit false

namespace Trajopt.Props

open Trajopt Spec Serde

variable {D : Type}

/-! ### One field -/

/-- One field, apart from the others. -/
def slotStep {α : Type} (name : String) (get : Json D → Except SerdeError α) (s : Option α)
    (e : String × Json D) : Except SerdeError (Option α) :=
  if e.1 = name then take name s (get e.2) else .ok s

theorem bind_ok {ε α β : Type} {x : Except ε α} {f : α → Except ε β} {b : β} :
    x >>= f = .ok b ↔ ∃ a, x = .ok a ∧ f a = .ok b := by
  cases x with
  | error e => simp [bind, Except.bind]
  | ok a => simp [bind, Except.bind]

theorem map_ok {ε α β : Type} {x : Except ε α} {f : α → β} {b : β} :
    x.map f = .ok b ↔ ∃ a, x = .ok a ∧ f a = b := by
  cases x with
  | error e => simp [Except.map]
  | ok a => simp [Except.map]

theorem fmap_ok {ε α β : Type} {x : Except ε α} {f : α → β} {b : β} :
    f <$> x = .ok b ↔ ∃ a, x = .ok a ∧ f a = b := map_ok

theorem pure_ok {ε α : Type} {a b : α} : (pure a : Except ε α) = .ok b ↔ a = b := by
  simp [pure, Except.pure]

theorem fold_cons {ε σ β : Type} {f : σ → β → Except ε σ} {s s' : σ} {e : β} {l : List β} :
    (e :: l).foldlM f s = .ok s' ↔ ∃ s1, f s e = .ok s1 ∧ l.foldlM f s1 = .ok s' := by
  rw [List.foldlM_cons, bind_ok]

theorem fold_nil {ε σ β : Type} {f : σ → β → Except ε σ} {s s' : σ} :
    ([] : List β).foldlM f s = .ok s' ↔ s = s' := by
  rw [List.foldlM_nil, pure_ok]

theorem fold_some {α : Type} (name : String) (get : Json D → Except SerdeError α) (a b : α)
    (l : List (String × Json D)) :
    l.foldlM (slotStep name get) (some a) = .ok (some b) ↔
      a = b ∧ l.filter (fun e => e.1 = name) = [] := by
  induction l with
  | nil => rw [fold_nil]; simp
  | cons e l ih =>
    rw [fold_cons]
    by_cases he : e.1 = name
    · simp [slotStep, he, take]
    · simp only [slotStep, he, if_false, Except.ok.injEq, exists_eq_left', ih]
      simp [he]

theorem fold_none {α : Type} (name : String) (get : Json D → Except SerdeError α) (b : α)
    (l : List (String × Json D)) :
    l.foldlM (slotStep name get) none = .ok (some b) ↔ Once l name fun j => get j = .ok b := by
  induction l with
  | nil => rw [fold_nil]; simp [Once]
  | cons e l ih =>
    rw [fold_cons]
    obtain ⟨n, j⟩ := e
    by_cases he : n = name
    · subst he
      simp only [slotStep, if_true, take, map_ok, Once]
      constructor
      · rintro ⟨_, ⟨a, ha, rfl⟩, h⟩
        obtain ⟨rfl, h'⟩ := (fold_some ..).mp h
        exact ⟨j, ha, by simp only [List.filter_cons, decide_true, if_true, h']⟩
      · rintro ⟨k, hk, h⟩
        simp only [List.filter_cons, decide_true, if_true, List.cons.injEq, Prod.mk.injEq, true_and] at h
        obtain ⟨rfl, h⟩ := h
        exact ⟨_, ⟨b, hk, rfl⟩, (fold_some ..).mpr ⟨rfl, h⟩⟩
    · simp only [slotStep, he, if_false, Except.ok.injEq, exists_eq_left', ih]
      simp [he, Once]

theorem need_ok {α : Type} {name : String} {o : Option α} {a : α} : need name o = .ok a ↔ o = some a := by
  cases o <;> simp [need]

/-! ### Numbers and lists -/

theorem getNumber_iff (j : Json D) (x : D) : getNumber j = .ok x ↔ IsNumber x j := by
  cases j <;> simp [getNumber, IsNumber]

theorem mapM_ok {ε α β : Type} {f : α → Except ε β} {l : List α} {r : List β} :
    l.mapM f = .ok r ↔ List.Forall₂ (fun b a => f a = .ok b) r l := by
  induction l generalizing r with
  | nil => cases r <;> simp [pure_ok]
  | cons a l ih =>
    rw [List.mapM_cons, bind_ok]
    simp only [bind_ok, pure_ok, ih]
    cases r with
    | nil => simp
    | cons b r =>
      simp only [List.cons.injEq, List.forall₂_cons]
      constructor
      · rintro ⟨_, h, _, h', rfl, rfl⟩; exact ⟨h, h'⟩
      · rintro ⟨h, h'⟩; exact ⟨_, h, _, h', rfl, rfl⟩

theorem getVec_iff {α : Type} {get : Json D → Except SerdeError α} {P : α → Json D → Prop}
    (h : ∀ j a, get j = .ok a ↔ P a j) (j : Json D) (l : List α) :
    getVec get j = .ok l ↔ IsList P l j := by
  cases j with
  | array k =>
    simp only [getVec, mapM_ok, IsList, Json.array.injEq, exists_eq_left', h]
  | _ => simp [getVec, IsList]

theorem nth_ok {α : Type} {l : List (Json D)} {n : Nat} {get : Json D → Except SerdeError α} {a : α} :
    nth l n get = .ok a ↔ ∃ j, l[n]? = some j ∧ get j = .ok a := by
  cases h : l[n]? <;> simp [nth, h]

theorem full_ok {α : Type} {l : List (Json D)} {n : Nat} {a b : α} :
    full l n a = .ok b ↔ l.length ≤ n ∧ a = b := by
  by_cases h : l.length ≤ n <;> simp [full, h]

/-! ### Structs -/

theorem moduleEntry_ok (s s' : ModuleSlots D) (e : String × Json D) :
    moduleEntry s e = .ok s' ↔
      slotStep "x" getNumber s.x e = .ok s'.x ∧
      slotStep "y" getNumber s.y e = .ok s'.y ∧
      slotStep "wheel_radius" getNumber s.wheel_radius e = .ok s'.wheel_radius ∧
      slotStep "wheel_max_angular_velocity" getNumber s.wheel_max_angular_velocity e = .ok s'.wheel_max_angular_velocity ∧
      slotStep "wheel_max_torque" getNumber s.wheel_max_torque e = .ok s'.wheel_max_torque := by
  obtain ⟨n, j⟩ := e
  obtain ⟨a0, a1, a2, a3, a4⟩ := s
  obtain ⟨b0, b1, b2, b3, b4⟩ := s'
  simp only [moduleEntry, slotStep]
  split_ifs with h0 h1 h2 h3 h4 <;> (try subst h0) <;>
    simp_all [fmap_ok, pure_ok] <;> tauto

theorem moduleFold_ok (s s' : ModuleSlots D) (l : List (String × Json D)) :
    l.foldlM moduleEntry s = .ok s' ↔
      l.foldlM (slotStep "x" getNumber) s.x = .ok s'.x ∧
      l.foldlM (slotStep "y" getNumber) s.y = .ok s'.y ∧
      l.foldlM (slotStep "wheel_radius" getNumber) s.wheel_radius = .ok s'.wheel_radius ∧
      l.foldlM (slotStep "wheel_max_angular_velocity" getNumber) s.wheel_max_angular_velocity = .ok s'.wheel_max_angular_velocity ∧
      l.foldlM (slotStep "wheel_max_torque" getNumber) s.wheel_max_torque = .ok s'.wheel_max_torque := by
  induction l generalizing s with
  | nil =>
    simp only [fold_nil]
    obtain ⟨a0, a1, a2, a3, a4⟩ := s
    obtain ⟨b0, b1, b2, b3, b4⟩ := s'
    simp
  | cons e l ih =>
    simp only [fold_cons, moduleEntry_ok, ih]
    constructor
    · rintro ⟨t, ⟨h0, h1, h2, h3, h4⟩, k0, k1, k2, k3, k4⟩
      exact ⟨⟨_, h0, k0⟩, ⟨_, h1, k1⟩, ⟨_, h2, k2⟩, ⟨_, h3, k3⟩, ⟨_, h4, k4⟩⟩
    · rintro ⟨⟨x0, h0, k0⟩, ⟨x1, h1, k1⟩, ⟨x2, h2, k2⟩, ⟨x3, h3, k3⟩, ⟨x4, h4, k4⟩⟩
      exact ⟨⟨x0, x1, x2, x3, x4⟩, ⟨h0, h1, h2, h3, h4⟩, k0, k1, k2, k3, k4⟩

theorem getModule_object (l : List (String × Json D)) (m : RustModule D) :
    getModule (.object l) = .ok m ↔
      Once l "x" (fun j => getNumber j = .ok m.x) ∧
      Once l "y" (fun j => getNumber j = .ok m.y) ∧
      Once l "wheel_radius" (fun j => getNumber j = .ok m.wheel_radius) ∧
      Once l "wheel_max_angular_velocity" (fun j => getNumber j = .ok m.wheel_max_angular_velocity) ∧
      Once l "wheel_max_torque" (fun j => getNumber j = .ok m.wheel_max_torque) := by
  simp only [getModule, bind_ok, pure_ok, need_ok, moduleFold_ok]
  constructor
  · rintro ⟨⟨a0, a1, a2, a3, a4⟩, ⟨h0, h1, h2, h3, h4⟩, b0, e0, b1, e1, b2, e2, b3, e3, b4, e4, rfl⟩
    simp only at e0 e1 e2 e3 e4
    subst e0 e1 e2 e3 e4
    exact ⟨(fold_none ..).mp h0, (fold_none ..).mp h1, (fold_none ..).mp h2, (fold_none ..).mp h3, (fold_none ..).mp h4⟩
  · rintro ⟨h0, h1, h2, h3, h4⟩
    exact ⟨⟨some m.x, some m.y, some m.wheel_radius, some m.wheel_max_angular_velocity, some m.wheel_max_torque⟩, ⟨(fold_none ..).mpr h0, (fold_none ..).mpr h1, (fold_none ..).mpr h2, (fold_none ..).mpr h3, (fold_none ..).mpr h4⟩,
      _, rfl, _, rfl, _, rfl, _, rfl, _, rfl, rfl⟩

theorem getModule_iff (j : Json D) (m : RustModule D) : getModule j = .ok m ↔ IsModule m j := by
  cases j with
  | object l =>
    rw [getModule_object]
    simp [IsModule, IsStruct, getNumber_iff]
  | array l =>
    obtain ⟨a0, a1, a2, a3, a4⟩ := m
    simp only [getModule, bind_ok, nth_ok, full_ok, IsModule, IsStruct]
    iterate 6 (rcases l with _ | ⟨j, l⟩; · simp [getNumber_iff])
    simp
  | _ => simp [getModule, IsModule, IsStruct]

theorem drivetrainEntry_ok (s s' : DrivetrainSlots D) (e : String × Json D) :
    drivetrainEntry s e = .ok s' ↔
      slotStep "mass" getNumber s.mass e = .ok s'.mass ∧
      slotStep "moi" getNumber s.moi e = .ok s'.moi ∧
      slotStep "modules" (getVec getModule) s.modules e = .ok s'.modules := by
  obtain ⟨n, j⟩ := e
  obtain ⟨a0, a1, a2⟩ := s
  obtain ⟨b0, b1, b2⟩ := s'
  simp only [drivetrainEntry, slotStep]
  split_ifs with h0 h1 h2 <;> (try subst h0) <;>
    simp_all [fmap_ok, pure_ok] <;> tauto

theorem drivetrainFold_ok (s s' : DrivetrainSlots D) (l : List (String × Json D)) :
    l.foldlM drivetrainEntry s = .ok s' ↔
      l.foldlM (slotStep "mass" getNumber) s.mass = .ok s'.mass ∧
      l.foldlM (slotStep "moi" getNumber) s.moi = .ok s'.moi ∧
      l.foldlM (slotStep "modules" (getVec getModule)) s.modules = .ok s'.modules := by
  induction l generalizing s with
  | nil =>
    simp only [fold_nil]
    obtain ⟨a0, a1, a2⟩ := s
    obtain ⟨b0, b1, b2⟩ := s'
    simp
  | cons e l ih =>
    simp only [fold_cons, drivetrainEntry_ok, ih]
    constructor
    · rintro ⟨t, ⟨h0, h1, h2⟩, k0, k1, k2⟩
      exact ⟨⟨_, h0, k0⟩, ⟨_, h1, k1⟩, ⟨_, h2, k2⟩⟩
    · rintro ⟨⟨x0, h0, k0⟩, ⟨x1, h1, k1⟩, ⟨x2, h2, k2⟩⟩
      exact ⟨⟨x0, x1, x2⟩, ⟨h0, h1, h2⟩, k0, k1, k2⟩

theorem getDrivetrain_object (l : List (String × Json D)) (m : RustDrivetrain D) :
    getDrivetrain (.object l) = .ok m ↔
      Once l "mass" (fun j => getNumber j = .ok m.mass) ∧
      Once l "moi" (fun j => getNumber j = .ok m.moi) ∧
      Once l "modules" (fun j => (getVec getModule) j = .ok m.modules) := by
  simp only [getDrivetrain, bind_ok, pure_ok, need_ok, drivetrainFold_ok]
  constructor
  · rintro ⟨⟨a0, a1, a2⟩, ⟨h0, h1, h2⟩, b0, e0, b1, e1, b2, e2, rfl⟩
    simp only at e0 e1 e2
    subst e0 e1 e2
    exact ⟨(fold_none ..).mp h0, (fold_none ..).mp h1, (fold_none ..).mp h2⟩
  · rintro ⟨h0, h1, h2⟩
    exact ⟨⟨some m.mass, some m.moi, some m.modules⟩, ⟨(fold_none ..).mpr h0, (fold_none ..).mpr h1, (fold_none ..).mpr h2⟩,
      _, rfl, _, rfl, _, rfl, rfl⟩

theorem getDrivetrain_iff (j : Json D) (m : RustDrivetrain D) : getDrivetrain j = .ok m ↔ IsDrivetrain m j := by
  cases j with
  | object l =>
    rw [getDrivetrain_object]
    simp [IsDrivetrain, IsStruct, getNumber_iff, getVec_iff getModule_iff]
  | array l =>
    obtain ⟨a0, a1, a2⟩ := m
    simp only [getDrivetrain, bind_ok, nth_ok, full_ok, IsDrivetrain, IsStruct]
    iterate 4 (rcases l with _ | ⟨j, l⟩; · simp [getNumber_iff, getVec_iff getModule_iff])
    simp
  | _ => simp [getDrivetrain, IsDrivetrain, IsStruct]

theorem poseEntry_ok (s s' : PoseSlots D) (e : String × Json D) :
    poseEntry s e = .ok s' ↔
      slotStep "x" getNumber s.x e = .ok s'.x ∧
      slotStep "y" getNumber s.y e = .ok s'.y ∧
      slotStep "heading" getNumber s.heading e = .ok s'.heading := by
  obtain ⟨n, j⟩ := e
  obtain ⟨a0, a1, a2⟩ := s
  obtain ⟨b0, b1, b2⟩ := s'
  simp only [poseEntry, slotStep]
  split_ifs with h0 h1 h2 <;> (try subst h0) <;>
    simp_all [fmap_ok, pure_ok] <;> tauto

theorem poseFold_ok (s s' : PoseSlots D) (l : List (String × Json D)) :
    l.foldlM poseEntry s = .ok s' ↔
      l.foldlM (slotStep "x" getNumber) s.x = .ok s'.x ∧
      l.foldlM (slotStep "y" getNumber) s.y = .ok s'.y ∧
      l.foldlM (slotStep "heading" getNumber) s.heading = .ok s'.heading := by
  induction l generalizing s with
  | nil =>
    simp only [fold_nil]
    obtain ⟨a0, a1, a2⟩ := s
    obtain ⟨b0, b1, b2⟩ := s'
    simp
  | cons e l ih =>
    simp only [fold_cons, poseEntry_ok, ih]
    constructor
    · rintro ⟨t, ⟨h0, h1, h2⟩, k0, k1, k2⟩
      exact ⟨⟨_, h0, k0⟩, ⟨_, h1, k1⟩, ⟨_, h2, k2⟩⟩
    · rintro ⟨⟨x0, h0, k0⟩, ⟨x1, h1, k1⟩, ⟨x2, h2, k2⟩⟩
      exact ⟨⟨x0, x1, x2⟩, ⟨h0, h1, h2⟩, k0, k1, k2⟩

theorem getPose_object (l : List (String × Json D)) (m : RustPose D) :
    getPose (.object l) = .ok m ↔
      Once l "x" (fun j => getNumber j = .ok m.x) ∧
      Once l "y" (fun j => getNumber j = .ok m.y) ∧
      Once l "heading" (fun j => getNumber j = .ok m.heading) := by
  simp only [getPose, bind_ok, pure_ok, need_ok, poseFold_ok]
  constructor
  · rintro ⟨⟨a0, a1, a2⟩, ⟨h0, h1, h2⟩, b0, e0, b1, e1, b2, e2, rfl⟩
    simp only at e0 e1 e2
    subst e0 e1 e2
    exact ⟨(fold_none ..).mp h0, (fold_none ..).mp h1, (fold_none ..).mp h2⟩
  · rintro ⟨h0, h1, h2⟩
    exact ⟨⟨some m.x, some m.y, some m.heading⟩, ⟨(fold_none ..).mpr h0, (fold_none ..).mpr h1, (fold_none ..).mpr h2⟩,
      _, rfl, _, rfl, _, rfl, rfl⟩

theorem getPose_iff (j : Json D) (m : RustPose D) : getPose j = .ok m ↔ IsPose m j := by
  cases j with
  | object l =>
    rw [getPose_object]
    simp [IsPose, IsStruct, getNumber_iff]
  | array l =>
    obtain ⟨a0, a1, a2⟩ := m
    simp only [getPose, bind_ok, nth_ok, full_ok, IsPose, IsStruct]
    iterate 4 (rcases l with _ | ⟨j, l⟩; · simp [getNumber_iff])
    simp
  | _ => simp [getPose, IsPose, IsStruct]

theorem sampleEntry_ok (s s' : SampleSlots D) (e : String × Json D) :
    sampleEntry s e = .ok s' ↔
      slotStep "timestamp" getNumber s.timestamp e = .ok s'.timestamp ∧
      slotStep "x" getNumber s.x e = .ok s'.x ∧
      slotStep "y" getNumber s.y e = .ok s'.y ∧
      slotStep "heading" getNumber s.heading e = .ok s'.heading ∧
      slotStep "velocity_x" getNumber s.velocity_x e = .ok s'.velocity_x ∧
      slotStep "velocity_y" getNumber s.velocity_y e = .ok s'.velocity_y ∧
      slotStep "angular_velocity" getNumber s.angular_velocity e = .ok s'.angular_velocity ∧
      slotStep "module_forces_x" (getVec getNumber) s.module_forces_x e = .ok s'.module_forces_x ∧
      slotStep "module_forces_y" (getVec getNumber) s.module_forces_y e = .ok s'.module_forces_y := by
  obtain ⟨n, j⟩ := e
  obtain ⟨a0, a1, a2, a3, a4, a5, a6, a7, a8⟩ := s
  obtain ⟨b0, b1, b2, b3, b4, b5, b6, b7, b8⟩ := s'
  simp only [sampleEntry, slotStep]
  split_ifs with h0 h1 h2 h3 h4 h5 h6 h7 h8 <;> (try subst h0) <;>
    simp_all [fmap_ok, pure_ok] <;> tauto

theorem sampleFold_ok (s s' : SampleSlots D) (l : List (String × Json D)) :
    l.foldlM sampleEntry s = .ok s' ↔
      l.foldlM (slotStep "timestamp" getNumber) s.timestamp = .ok s'.timestamp ∧
      l.foldlM (slotStep "x" getNumber) s.x = .ok s'.x ∧
      l.foldlM (slotStep "y" getNumber) s.y = .ok s'.y ∧
      l.foldlM (slotStep "heading" getNumber) s.heading = .ok s'.heading ∧
      l.foldlM (slotStep "velocity_x" getNumber) s.velocity_x = .ok s'.velocity_x ∧
      l.foldlM (slotStep "velocity_y" getNumber) s.velocity_y = .ok s'.velocity_y ∧
      l.foldlM (slotStep "angular_velocity" getNumber) s.angular_velocity = .ok s'.angular_velocity ∧
      l.foldlM (slotStep "module_forces_x" (getVec getNumber)) s.module_forces_x = .ok s'.module_forces_x ∧
      l.foldlM (slotStep "module_forces_y" (getVec getNumber)) s.module_forces_y = .ok s'.module_forces_y := by
  induction l generalizing s with
  | nil =>
    simp only [fold_nil]
    obtain ⟨a0, a1, a2, a3, a4, a5, a6, a7, a8⟩ := s
    obtain ⟨b0, b1, b2, b3, b4, b5, b6, b7, b8⟩ := s'
    simp
  | cons e l ih =>
    simp only [fold_cons, sampleEntry_ok, ih]
    constructor
    · rintro ⟨t, ⟨h0, h1, h2, h3, h4, h5, h6, h7, h8⟩, k0, k1, k2, k3, k4, k5, k6, k7, k8⟩
      exact ⟨⟨_, h0, k0⟩, ⟨_, h1, k1⟩, ⟨_, h2, k2⟩, ⟨_, h3, k3⟩, ⟨_, h4, k4⟩, ⟨_, h5, k5⟩, ⟨_, h6, k6⟩, ⟨_, h7, k7⟩, ⟨_, h8, k8⟩⟩
    · rintro ⟨⟨x0, h0, k0⟩, ⟨x1, h1, k1⟩, ⟨x2, h2, k2⟩, ⟨x3, h3, k3⟩, ⟨x4, h4, k4⟩, ⟨x5, h5, k5⟩, ⟨x6, h6, k6⟩, ⟨x7, h7, k7⟩, ⟨x8, h8, k8⟩⟩
      exact ⟨⟨x0, x1, x2, x3, x4, x5, x6, x7, x8⟩, ⟨h0, h1, h2, h3, h4, h5, h6, h7, h8⟩, k0, k1, k2, k3, k4, k5, k6, k7, k8⟩

theorem getSample_object (l : List (String × Json D)) (m : RustSample D) :
    getSample (.object l) = .ok m ↔
      Once l "timestamp" (fun j => getNumber j = .ok m.timestamp) ∧
      Once l "x" (fun j => getNumber j = .ok m.x) ∧
      Once l "y" (fun j => getNumber j = .ok m.y) ∧
      Once l "heading" (fun j => getNumber j = .ok m.heading) ∧
      Once l "velocity_x" (fun j => getNumber j = .ok m.velocity_x) ∧
      Once l "velocity_y" (fun j => getNumber j = .ok m.velocity_y) ∧
      Once l "angular_velocity" (fun j => getNumber j = .ok m.angular_velocity) ∧
      Once l "module_forces_x" (fun j => (getVec getNumber) j = .ok m.module_forces_x) ∧
      Once l "module_forces_y" (fun j => (getVec getNumber) j = .ok m.module_forces_y) := by
  simp only [getSample, bind_ok, pure_ok, need_ok, sampleFold_ok]
  constructor
  · rintro ⟨⟨a0, a1, a2, a3, a4, a5, a6, a7, a8⟩, ⟨h0, h1, h2, h3, h4, h5, h6, h7, h8⟩, b0, e0, b1, e1, b2, e2, b3, e3, b4, e4, b5, e5, b6, e6, b7, e7, b8, e8, rfl⟩
    simp only at e0 e1 e2 e3 e4 e5 e6 e7 e8
    subst e0 e1 e2 e3 e4 e5 e6 e7 e8
    exact ⟨(fold_none ..).mp h0, (fold_none ..).mp h1, (fold_none ..).mp h2, (fold_none ..).mp h3, (fold_none ..).mp h4, (fold_none ..).mp h5, (fold_none ..).mp h6, (fold_none ..).mp h7, (fold_none ..).mp h8⟩
  · rintro ⟨h0, h1, h2, h3, h4, h5, h6, h7, h8⟩
    exact ⟨⟨some m.timestamp, some m.x, some m.y, some m.heading, some m.velocity_x, some m.velocity_y, some m.angular_velocity, some m.module_forces_x, some m.module_forces_y⟩, ⟨(fold_none ..).mpr h0, (fold_none ..).mpr h1, (fold_none ..).mpr h2, (fold_none ..).mpr h3, (fold_none ..).mpr h4, (fold_none ..).mpr h5, (fold_none ..).mpr h6, (fold_none ..).mpr h7, (fold_none ..).mpr h8⟩,
      _, rfl, _, rfl, _, rfl, _, rfl, _, rfl, _, rfl, _, rfl, _, rfl, _, rfl, rfl⟩

theorem getSample_iff (j : Json D) (m : RustSample D) : getSample j = .ok m ↔ IsSample m j := by
  cases j with
  | object l =>
    rw [getSample_object]
    simp [IsSample, IsStruct, getNumber_iff, getVec_iff getNumber_iff]
  | array l =>
    obtain ⟨a0, a1, a2, a3, a4, a5, a6, a7, a8⟩ := m
    simp only [getSample, bind_ok, nth_ok, full_ok, IsSample, IsStruct]
    iterate 10 (rcases l with _ | ⟨j, l⟩; · simp [getNumber_iff, getVec_iff getNumber_iff])
    simp
  | _ => simp [getSample, IsSample, IsStruct]

end Trajopt.Props
