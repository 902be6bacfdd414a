import Verif.Spec.SerdeErrors
import Verif.Props.Serde

/-!
# C107 Errors when a document is read

What a rejected document is reported for is wrong with it.
-/

set_option autoImplicit false

namespace Trajopt.Props

open Trajopt Spec Serde

variable {D : Type}

theorem bind_err {ε α β : Type} {x : Except ε α} {f : α → Except ε β} {e : ε} :
    x >>= f = .error e ↔ x = .error e ∨ ∃ a, x = .ok a ∧ f a = .error e := by
  cases x with
  | error e => simp [bind, Except.bind]
  | ok a => simp [bind, Except.bind]

theorem pure_err {ε α : Type} {a : α} {e : ε} : (pure a : Except ε α) = .error e ↔ False := by
  simp [pure, Except.pure]

theorem need_err {α : Type} {name : String} {s : Option α} {e : SerdeError} :
    need name s = .error e ↔ s.isSome = false ∧ e = .missingField name := by
  cases s <;> simp [need, eq_comm]

theorem take_err {α : Type} {name : String} {s : Option α} {r : Except SerdeError α}
    {e : SerdeError} :
    take name s r = .error e ↔ (s.isSome = true ∧ e = .duplicateField name) ∨
      (s.isSome = false ∧ r = .error e) := by
  cases s <;> cases r <;> simp [take, Except.map, eq_comm]

theorem take_done {α : Type} {name : String} {s s' : Option α} {r : Except SerdeError α}
    (h : take name s r = .ok s') : s'.isSome = true := by
  cases s <;> cases r <;> simp [take, Except.map] at h
  subst h
  rfl

theorem getNumber_blame {j : Json D} {e : SerdeError} (h : getNumber j = .error e) :
    BlameNumber e j := by
  cases j <;> simp [getNumber] at h <;> exact ⟨h.symm, by simp⟩

theorem mapM_err {α β ε : Type} {f : α → Except ε β} {l : List α} {e : ε}
    (h : l.mapM f = .error e) : ∃ v ∈ l, f v = .error e := by
  induction l with
  | nil => simp [pure, Except.pure] at h
  | cons a l ih =>
    rw [List.mapM_cons, bind_err] at h
    rcases h with h | ⟨b, -, h⟩
    · exact ⟨a, List.mem_cons_self, h⟩
    · rw [bind_err] at h
      rcases h with h | ⟨c, -, h⟩
      · obtain ⟨v, hv, h⟩ := ih h
        exact ⟨v, List.mem_cons_of_mem _ hv, h⟩
      · simp [pure, Except.pure] at h

theorem getVec_blame {α : Type} {get : Json D → Except SerdeError α}
    {P : SerdeError → Json D → Prop} (hP : ∀ j e, get j = .error e → P e j) {j : Json D}
    {e : SerdeError} (h : getVec get j = .error e) : BlameList P e j := by
  cases j with
  | array l =>
    obtain ⟨v, hv, h⟩ := mapM_err (show l.mapM get = .error e from h)
    exact .inr ⟨l, rfl, v, hv, hP _ _ h⟩
  | _ =>
    simp [getVec] at h
    exact .inl ⟨h.symm, by simp⟩

theorem nth_err {α : Type} {l : List (Json D)} {n : ℕ} {get : Json D → Except SerdeError α}
    {e : SerdeError} (h : nth l n get = .error e) :
    (l.length ≤ n ∧ e = .invalidLength n) ∨ ∃ v, l[n]? = some v ∧ get v = .error e := by
  unfold nth at h
  split at h
  · rename_i v hv
    exact .inr ⟨v, hv, h⟩
  · rename_i hv
    simp only [Except.error.injEq] at h
    exact .inl ⟨List.getElem?_eq_none_iff.mp hv, h.symm⟩

theorem nth_long {α : Type} {l : List (Json D)} {n : ℕ} {get : Json D → Except SerdeError α} {a : α}
    (h : nth l n get = .ok a) : n < l.length := by
  unfold nth at h
  split at h
  · rename_i v hv
    exact (List.getElem?_eq_some_iff.mp hv).1
  · cases h

/-- Reading the entries of an object.  `has s n` says that the field `n` has been met. -/
theorem object_blame {σ : Type} (fields : List (String × (SerdeError → Json D → Prop)))
    (entry : σ → String × Json D → Except SerdeError σ) (has : σ → String → Bool)
    (hok : ∀ s x s', entry s x = .ok s' → ∀ n, has s' n = true ↔
      (has s n = true ∨ (n = x.1 ∧ n ∈ fields.map Prod.fst)))
    (herr : ∀ s x e, entry s x = .error e → ∃ f ∈ fields, x.1 = f.1 ∧
      ((has s f.1 = true ∧ e = .duplicateField f.1) ∨ f.2 e x.2))
    (s₀ : σ) (h₀ : ∀ n, has s₀ n = false) (l : List (String × Json D)) :
    (∀ e, l.foldlM entry s₀ = .error e →
      (∃ f ∈ fields, e = .duplicateField f.1 ∧ 2 ≤ (l.map Prod.fst).count f.1) ∨
      ∃ f ∈ fields, ∃ v, (f.1, v) ∈ l ∧ f.2 e v) ∧
    (∀ s, l.foldlM entry s₀ = .ok s → ∀ f ∈ fields, has s f.1 = false → f.1 ∉ l.map Prod.fst) := by
  -- `pre` has been read already
  have go : ∀ (l pre : List (String × Json D)) (s : σ),
      (∀ n, has s n = true ↔ (n ∈ pre.map Prod.fst ∧ n ∈ fields.map Prod.fst)) →
      (∀ e, l.foldlM entry s = .error e →
        (∃ f ∈ fields, e = .duplicateField f.1 ∧ 2 ≤ ((pre ++ l).map Prod.fst).count f.1) ∨
        ∃ f ∈ fields, ∃ v, (f.1, v) ∈ l ∧ f.2 e v) ∧
      (∀ s', l.foldlM entry s = .ok s' → ∀ n, has s' n = true ↔
        (n ∈ (pre ++ l).map Prod.fst ∧ n ∈ fields.map Prod.fst)) := by
    intro l
    induction l with
    | nil =>
      intro pre s hs
      refine ⟨fun e h => by simp [pure, Except.pure] at h, fun s' h => ?_⟩
      obtain rfl : s = s' := by simpa [pure, Except.pure] using h
      simpa using hs
    | cons x l ih =>
      intro pre s hs
      cases hx : entry s x with
      | error e =>
        refine ⟨fun e' h => ?_, fun s' h => ?_⟩
        · obtain rfl : e = e' := by simpa [List.foldlM_cons, hx, bind, Except.bind] using h
          obtain ⟨f, hf, hxf, ⟨h1, h2⟩ | h1⟩ := herr s x e hx
          · refine .inl ⟨f, hf, h2, ?_⟩
            have := List.count_pos_iff.mpr ((hs _).mp h1).1
            rw [List.map_append, List.count_append, List.map_cons, hxf, List.count_cons_self]
            omega
          · exact .inr ⟨f, hf, x.2, by rw [← hxf]; exact List.mem_cons_self, h1⟩
        · simp [List.foldlM_cons, hx, bind, Except.bind] at h
      | ok s₁ =>
        have hs₁ : ∀ n, has s₁ n = true ↔
            (n ∈ (pre ++ [x]).map Prod.fst ∧ n ∈ fields.map Prod.fst) := by
          intro n
          rw [hok s x s₁ hx, hs, List.map_append, List.mem_append, List.map_singleton,
            List.mem_singleton]
          tauto
        obtain ⟨h1, h2⟩ := ih (pre ++ [x]) s₁ hs₁
        rw [List.append_assoc, List.singleton_append] at h1 h2
        rw [List.foldlM_cons, hx]
        refine ⟨fun e h => ?_, h2⟩
        rcases h1 e h with h | ⟨f, hf, v, hv, h⟩
        · exact .inl h
        · exact .inr ⟨f, hf, v, List.mem_cons_of_mem _ hv, h⟩
  obtain ⟨h1, h2⟩ := go l [] s₀ (by simp [h₀])
  refine ⟨h1, fun s hs f hf hn hm => ?_⟩
  have := (h2 s hs f.1).mpr ⟨hm, List.mem_map_of_mem hf⟩
  rw [hn] at this
  cases this

theorem full_err {α : Type} {l : List (Json D)} {n : ℕ} {a : α} {e : SerdeError} :
    full l n a = .error e ↔ n < l.length ∧ e = .invalidLength l.length := by
  unfold full
  split <;> simp [eq_comm] <;> omega

/-- A wrong element of an array. -/
theorem nth_blame {α : Type} {fields : List (String × (SerdeError → Json D → Prop))}
    {l : List (Json D)} {n : ℕ} {get : Json D → Except SerdeError α} {e : SerdeError}
    {f : String × (SerdeError → Json D → Prop)} (hf : fields[n]? = some f)
    (hget : ∀ j e, get j = .error e → f.2 e j) (h : nth l n get = .error e) (hl : n ≤ l.length) :
    Blame fields e (.array l) := by
  refine .inr (.inl ⟨l, rfl, ?_⟩)
  rcases nth_err h with ⟨h1, rfl⟩ | ⟨v, hv, h1⟩
  · have := (List.getElem?_eq_some_iff.mp hf).1
    exact .inl ⟨by rw [le_antisymm hl h1], by omega⟩
  · exact .inr ⟨n, f, v, hf, hv, hget _ _ h1⟩

/-- Too many elements in an array. -/
theorem full_blame {α : Type} {fields : List (String × (SerdeError → Json D → Prop))}
    {l : List (Json D)} {n : ℕ} {a : α} {e : SerdeError} (hn : fields.length = n)
    (h : full l n a = .error e) : Blame fields e (.array l) := by
  obtain ⟨h1, h2⟩ := full_err.mp h
  exact .inr (.inl ⟨l, rfl, .inl ⟨h2, by omega⟩⟩)

/-- Which fields have been met. -/
def moduleHas (s : ModuleSlots D) (n : String) : Bool :=
  if n = "x" then s.x.isSome
  else if n = "y" then s.y.isSome
  else if n = "wheel_radius" then s.wheel_radius.isSome
  else if n = "wheel_max_angular_velocity" then s.wheel_max_angular_velocity.isSome
  else if n = "wheel_max_torque" then s.wheel_max_torque.isSome else false

theorem moduleHas_ok {s s' : ModuleSlots D} {x : String × Json D} (h : moduleEntry s x = .ok s') (n : String) :
    moduleHas s' n = true ↔ (moduleHas s n = true ∨ (n = x.1 ∧ n ∈
      ["x", "y", "wheel_radius", "wheel_max_angular_velocity", "wheel_max_torque"])) := by
  unfold moduleEntry at h
  unfold moduleHas
  split_ifs at h with c0 c1 c2 c3 c4 <;> simp only [bind_ok, pure_ok] at h
  · obtain ⟨a, ha, rfl⟩ := h
    by_cases hn : n = "x"
    · subst hn
      simp [c0, take_done ha]
    · simp [c0, hn]
  · obtain ⟨a, ha, rfl⟩ := h
    by_cases hn : n = "y"
    · subst hn
      simp [c1, take_done ha]
    · simp [c1, hn]
  · obtain ⟨a, ha, rfl⟩ := h
    by_cases hn : n = "wheel_radius"
    · subst hn
      simp [c2, take_done ha]
    · simp [c2, hn]
  · obtain ⟨a, ha, rfl⟩ := h
    by_cases hn : n = "wheel_max_angular_velocity"
    · subst hn
      simp [c3, take_done ha]
    · simp [c3, hn]
  · obtain ⟨a, ha, rfl⟩ := h
    by_cases hn : n = "wheel_max_torque"
    · subst hn
      simp [c4, take_done ha]
    · simp [c4, hn]
  · subst h
    refine ⟨.inl, fun h => h.elim id fun ⟨h1, h2⟩ => ?_⟩
    subst h1
    simp [c0, c1, c2, c3, c4] at h2

theorem moduleHas_err {s : ModuleSlots D} {x : String × Json D} {e : SerdeError} (h : moduleEntry s x = .error e) :
    ∃ f ∈ ([("x", BlameNumber), ("y", BlameNumber), ("wheel_radius", BlameNumber),
      ("wheel_max_angular_velocity", BlameNumber), ("wheel_max_torque", BlameNumber)] :
      List (String × (SerdeError → Json D → Prop))), x.1 = f.1 ∧
      ((moduleHas s f.1 = true ∧ e = .duplicateField f.1) ∨ f.2 e x.2) := by
  unfold moduleEntry at h
  split_ifs at h with c0 c1 c2 c3 c4 <;>
    simp only [bind_err, pure_err, and_false, exists_false, or_false, take_err] at h
  · refine ⟨("x", BlameNumber), by simp, c0, ?_⟩
    rcases h with h | h
    · exact .inl ⟨by simpa [moduleHas] using h.1, h.2⟩
    · exact .inr (getNumber_blame h.2)
  · refine ⟨("y", BlameNumber), by simp, c1, ?_⟩
    rcases h with h | h
    · exact .inl ⟨by simpa [moduleHas] using h.1, h.2⟩
    · exact .inr (getNumber_blame h.2)
  · refine ⟨("wheel_radius", BlameNumber), by simp, c2, ?_⟩
    rcases h with h | h
    · exact .inl ⟨by simpa [moduleHas] using h.1, h.2⟩
    · exact .inr (getNumber_blame h.2)
  · refine ⟨("wheel_max_angular_velocity", BlameNumber), by simp, c3, ?_⟩
    rcases h with h | h
    · exact .inl ⟨by simpa [moduleHas] using h.1, h.2⟩
    · exact .inr (getNumber_blame h.2)
  · refine ⟨("wheel_max_torque", BlameNumber), by simp, c4, ?_⟩
    rcases h with h | h
    · exact .inl ⟨by simpa [moduleHas] using h.1, h.2⟩
    · exact .inr (getNumber_blame h.2)

theorem getModule_blame {j : Json D} {e : SerdeError} (h : getModule j = .error e) :
    BlameModule e j := by
  cases j with
  | object l =>
    obtain ⟨h1, h2⟩ := object_blame (D := D)
      [("x", BlameNumber), ("y", BlameNumber), ("wheel_radius", BlameNumber),
      ("wheel_max_angular_velocity", BlameNumber), ("wheel_max_torque", BlameNumber)]
      moduleEntry moduleHas (fun _ _ _ => moduleHas_ok) (fun _ _ _ => moduleHas_err)
      {} (by simp [moduleHas]) l
    refine .inl ⟨l, rfl, ?_⟩
    simp only [getModule, bind_err, pure_err, need_err, and_false, exists_false, or_false] at h
    rcases h with h | ⟨s, hs, ⟨hm, he⟩ | ⟨-, -, ⟨hm, he⟩ | ⟨-, -, ⟨hm, he⟩ | ⟨-, -, ⟨hm, he⟩ | ⟨-, -, ⟨hm, he⟩⟩⟩⟩⟩⟩
    · exact .inr (h1 e h)
    · exact .inl ⟨("x", BlameNumber), by simp, he,
        h2 s hs ("x", BlameNumber) (by simp) (by simp [moduleHas, hm])⟩
    · exact .inl ⟨("y", BlameNumber), by simp, he,
        h2 s hs ("y", BlameNumber) (by simp) (by simp [moduleHas, hm])⟩
    · exact .inl ⟨("wheel_radius", BlameNumber), by simp, he,
        h2 s hs ("wheel_radius", BlameNumber) (by simp) (by simp [moduleHas, hm])⟩
    · exact .inl ⟨("wheel_max_angular_velocity", BlameNumber), by simp, he,
        h2 s hs ("wheel_max_angular_velocity", BlameNumber) (by simp) (by simp [moduleHas, hm])⟩
    · exact .inl ⟨("wheel_max_torque", BlameNumber), by simp, he,
        h2 s hs ("wheel_max_torque", BlameNumber) (by simp) (by simp [moduleHas, hm])⟩
  | array l =>
    simp only [getModule, bind_err] at h
    rcases h with h | ⟨_, g0, h | ⟨_, g1, h | ⟨_, g2, h | ⟨_, g3, h | ⟨_, g4, h⟩⟩⟩⟩⟩
    · exact nth_blame rfl (fun _ _ => getNumber_blame) h (Nat.zero_le _)
    · exact nth_blame rfl (fun _ _ => getNumber_blame) h (nth_long g0)
    · exact nth_blame rfl (fun _ _ => getNumber_blame) h (nth_long g1)
    · exact nth_blame rfl (fun _ _ => getNumber_blame) h (nth_long g2)
    · exact nth_blame rfl (fun _ _ => getNumber_blame) h (nth_long g3)
    · exact full_blame rfl h
  | _ =>
    simp [getModule] at h
    exact .inr (.inr ⟨h.symm, by simp, by simp⟩)

/-- Which fields have been met. -/
def drivetrainHas (s : DrivetrainSlots D) (n : String) : Bool :=
  if n = "mass" then s.mass.isSome
  else if n = "moi" then s.moi.isSome
  else if n = "modules" then s.modules.isSome else false

theorem drivetrainHas_ok {s s' : DrivetrainSlots D} {x : String × Json D} (h : drivetrainEntry s x = .ok s') (n : String) :
    drivetrainHas s' n = true ↔ (drivetrainHas s n = true ∨ (n = x.1 ∧ n ∈
      ["mass", "moi", "modules"])) := by
  unfold drivetrainEntry at h
  unfold drivetrainHas
  split_ifs at h with c0 c1 c2 <;> simp only [bind_ok, pure_ok] at h
  · obtain ⟨a, ha, rfl⟩ := h
    by_cases hn : n = "mass"
    · subst hn
      simp [c0, take_done ha]
    · simp [c0, hn]
  · obtain ⟨a, ha, rfl⟩ := h
    by_cases hn : n = "moi"
    · subst hn
      simp [c1, take_done ha]
    · simp [c1, hn]
  · obtain ⟨a, ha, rfl⟩ := h
    by_cases hn : n = "modules"
    · subst hn
      simp [c2, take_done ha]
    · simp [c2, hn]
  · subst h
    refine ⟨.inl, fun h => h.elim id fun ⟨h1, h2⟩ => ?_⟩
    subst h1
    simp [c0, c1, c2] at h2

theorem drivetrainHas_err {s : DrivetrainSlots D} {x : String × Json D} {e : SerdeError} (h : drivetrainEntry s x = .error e) :
    ∃ f ∈ ([("mass", BlameNumber), ("moi", BlameNumber), ("modules", BlameList BlameModule)] :
      List (String × (SerdeError → Json D → Prop))), x.1 = f.1 ∧
      ((drivetrainHas s f.1 = true ∧ e = .duplicateField f.1) ∨ f.2 e x.2) := by
  unfold drivetrainEntry at h
  split_ifs at h with c0 c1 c2 <;>
    simp only [bind_err, pure_err, and_false, exists_false, or_false, take_err] at h
  · refine ⟨("mass", BlameNumber), by simp, c0, ?_⟩
    rcases h with h | h
    · exact .inl ⟨by simpa [drivetrainHas] using h.1, h.2⟩
    · exact .inr (getNumber_blame h.2)
  · refine ⟨("moi", BlameNumber), by simp, c1, ?_⟩
    rcases h with h | h
    · exact .inl ⟨by simpa [drivetrainHas] using h.1, h.2⟩
    · exact .inr (getNumber_blame h.2)
  · refine ⟨("modules", BlameList BlameModule), by simp, c2, ?_⟩
    rcases h with h | h
    · exact .inl ⟨by simpa [drivetrainHas] using h.1, h.2⟩
    · exact .inr (getVec_blame (fun _ _ => getModule_blame) h.2)

theorem getDrivetrain_blame {j : Json D} {e : SerdeError} (h : getDrivetrain j = .error e) :
    BlameDrivetrain e j := by
  cases j with
  | object l =>
    obtain ⟨h1, h2⟩ := object_blame (D := D)
      [("mass", BlameNumber), ("moi", BlameNumber), ("modules", BlameList BlameModule)]
      drivetrainEntry drivetrainHas (fun _ _ _ => drivetrainHas_ok) (fun _ _ _ => drivetrainHas_err)
      {} (by simp [drivetrainHas]) l
    refine .inl ⟨l, rfl, ?_⟩
    simp only [getDrivetrain, bind_err, pure_err, need_err, and_false, exists_false, or_false] at h
    rcases h with h | ⟨s, hs, ⟨hm, he⟩ | ⟨-, -, ⟨hm, he⟩ | ⟨-, -, ⟨hm, he⟩⟩⟩⟩
    · exact .inr (h1 e h)
    · exact .inl ⟨("mass", BlameNumber), by simp, he,
        h2 s hs ("mass", BlameNumber) (by simp) (by simp [drivetrainHas, hm])⟩
    · exact .inl ⟨("moi", BlameNumber), by simp, he,
        h2 s hs ("moi", BlameNumber) (by simp) (by simp [drivetrainHas, hm])⟩
    · exact .inl ⟨("modules", BlameList BlameModule), by simp, he,
        h2 s hs ("modules", BlameList BlameModule) (by simp) (by simp [drivetrainHas, hm])⟩
  | array l =>
    simp only [getDrivetrain, bind_err] at h
    rcases h with h | ⟨_, g0, h | ⟨_, g1, h | ⟨_, g2, h⟩⟩⟩
    · exact nth_blame rfl (fun _ _ => getNumber_blame) h (Nat.zero_le _)
    · exact nth_blame rfl (fun _ _ => getNumber_blame) h (nth_long g0)
    · exact nth_blame rfl (fun _ _ => getVec_blame fun _ _ => getModule_blame) h (nth_long g1)
    · exact full_blame rfl h
  | _ =>
    simp [getDrivetrain] at h
    exact .inr (.inr ⟨h.symm, by simp, by simp⟩)

/-- Which fields have been met. -/
def poseHas (s : PoseSlots D) (n : String) : Bool :=
  if n = "x" then s.x.isSome
  else if n = "y" then s.y.isSome
  else if n = "heading" then s.heading.isSome else false

theorem poseHas_ok {s s' : PoseSlots D} {x : String × Json D} (h : poseEntry s x = .ok s') (n : String) :
    poseHas s' n = true ↔ (poseHas s n = true ∨ (n = x.1 ∧ n ∈
      ["x", "y", "heading"])) := by
  unfold poseEntry at h
  unfold poseHas
  split_ifs at h with c0 c1 c2 <;> simp only [bind_ok, pure_ok] at h
  · obtain ⟨a, ha, rfl⟩ := h
    by_cases hn : n = "x"
    · subst hn
      simp [c0, take_done ha]
    · simp [c0, hn]
  · obtain ⟨a, ha, rfl⟩ := h
    by_cases hn : n = "y"
    · subst hn
      simp [c1, take_done ha]
    · simp [c1, hn]
  · obtain ⟨a, ha, rfl⟩ := h
    by_cases hn : n = "heading"
    · subst hn
      simp [c2, take_done ha]
    · simp [c2, hn]
  · subst h
    refine ⟨.inl, fun h => h.elim id fun ⟨h1, h2⟩ => ?_⟩
    subst h1
    simp [c0, c1, c2] at h2

theorem poseHas_err {s : PoseSlots D} {x : String × Json D} {e : SerdeError} (h : poseEntry s x = .error e) :
    ∃ f ∈ ([("x", BlameNumber), ("y", BlameNumber), ("heading", BlameNumber)] :
      List (String × (SerdeError → Json D → Prop))), x.1 = f.1 ∧
      ((poseHas s f.1 = true ∧ e = .duplicateField f.1) ∨ f.2 e x.2) := by
  unfold poseEntry at h
  split_ifs at h with c0 c1 c2 <;>
    simp only [bind_err, pure_err, and_false, exists_false, or_false, take_err] at h
  · refine ⟨("x", BlameNumber), by simp, c0, ?_⟩
    rcases h with h | h
    · exact .inl ⟨by simpa [poseHas] using h.1, h.2⟩
    · exact .inr (getNumber_blame h.2)
  · refine ⟨("y", BlameNumber), by simp, c1, ?_⟩
    rcases h with h | h
    · exact .inl ⟨by simpa [poseHas] using h.1, h.2⟩
    · exact .inr (getNumber_blame h.2)
  · refine ⟨("heading", BlameNumber), by simp, c2, ?_⟩
    rcases h with h | h
    · exact .inl ⟨by simpa [poseHas] using h.1, h.2⟩
    · exact .inr (getNumber_blame h.2)

theorem getPose_blame {j : Json D} {e : SerdeError} (h : getPose j = .error e) :
    BlamePose e j := by
  cases j with
  | object l =>
    obtain ⟨h1, h2⟩ := object_blame (D := D)
      [("x", BlameNumber), ("y", BlameNumber), ("heading", BlameNumber)]
      poseEntry poseHas (fun _ _ _ => poseHas_ok) (fun _ _ _ => poseHas_err)
      {} (by simp [poseHas]) l
    refine .inl ⟨l, rfl, ?_⟩
    simp only [getPose, bind_err, pure_err, need_err, and_false, exists_false, or_false] at h
    rcases h with h | ⟨s, hs, ⟨hm, he⟩ | ⟨-, -, ⟨hm, he⟩ | ⟨-, -, ⟨hm, he⟩⟩⟩⟩
    · exact .inr (h1 e h)
    · exact .inl ⟨("x", BlameNumber), by simp, he,
        h2 s hs ("x", BlameNumber) (by simp) (by simp [poseHas, hm])⟩
    · exact .inl ⟨("y", BlameNumber), by simp, he,
        h2 s hs ("y", BlameNumber) (by simp) (by simp [poseHas, hm])⟩
    · exact .inl ⟨("heading", BlameNumber), by simp, he,
        h2 s hs ("heading", BlameNumber) (by simp) (by simp [poseHas, hm])⟩
  | array l =>
    simp only [getPose, bind_err] at h
    rcases h with h | ⟨_, g0, h | ⟨_, g1, h | ⟨_, g2, h⟩⟩⟩
    · exact nth_blame rfl (fun _ _ => getNumber_blame) h (Nat.zero_le _)
    · exact nth_blame rfl (fun _ _ => getNumber_blame) h (nth_long g0)
    · exact nth_blame rfl (fun _ _ => getNumber_blame) h (nth_long g1)
    · exact full_blame rfl h
  | _ =>
    simp [getPose] at h
    exact .inr (.inr ⟨h.symm, by simp, by simp⟩)

/-- Which fields have been met. -/
def sampleHas (s : SampleSlots D) (n : String) : Bool :=
  if n = "timestamp" then s.timestamp.isSome
  else if n = "x" then s.x.isSome
  else if n = "y" then s.y.isSome
  else if n = "heading" then s.heading.isSome
  else if n = "velocity_x" then s.velocity_x.isSome
  else if n = "velocity_y" then s.velocity_y.isSome
  else if n = "angular_velocity" then s.angular_velocity.isSome
  else if n = "module_forces_x" then s.module_forces_x.isSome
  else if n = "module_forces_y" then s.module_forces_y.isSome else false

theorem sampleHas_ok {s s' : SampleSlots D} {x : String × Json D} (h : sampleEntry s x = .ok s') (n : String) :
    sampleHas s' n = true ↔ (sampleHas s n = true ∨ (n = x.1 ∧ n ∈
      ["timestamp", "x", "y", "heading", "velocity_x", "velocity_y", "angular_velocity",
        "module_forces_x", "module_forces_y"])) := by
  unfold sampleEntry at h
  unfold sampleHas
  split_ifs at h with c0 c1 c2 c3 c4 c5 c6 c7 c8 <;> simp only [bind_ok, pure_ok] at h
  · obtain ⟨a, ha, rfl⟩ := h
    by_cases hn : n = "timestamp"
    · subst hn
      simp [c0, take_done ha]
    · simp [c0, hn]
  · obtain ⟨a, ha, rfl⟩ := h
    by_cases hn : n = "x"
    · subst hn
      simp [c1, take_done ha]
    · simp [c1, hn]
  · obtain ⟨a, ha, rfl⟩ := h
    by_cases hn : n = "y"
    · subst hn
      simp [c2, take_done ha]
    · simp [c2, hn]
  · obtain ⟨a, ha, rfl⟩ := h
    by_cases hn : n = "heading"
    · subst hn
      simp [c3, take_done ha]
    · simp [c3, hn]
  · obtain ⟨a, ha, rfl⟩ := h
    by_cases hn : n = "velocity_x"
    · subst hn
      simp [c4, take_done ha]
    · simp [c4, hn]
  · obtain ⟨a, ha, rfl⟩ := h
    by_cases hn : n = "velocity_y"
    · subst hn
      simp [c5, take_done ha]
    · simp [c5, hn]
  · obtain ⟨a, ha, rfl⟩ := h
    by_cases hn : n = "angular_velocity"
    · subst hn
      simp [c6, take_done ha]
    · simp [c6, hn]
  · obtain ⟨a, ha, rfl⟩ := h
    by_cases hn : n = "module_forces_x"
    · subst hn
      simp [c7, take_done ha]
    · simp [c7, hn]
  · obtain ⟨a, ha, rfl⟩ := h
    by_cases hn : n = "module_forces_y"
    · subst hn
      simp [c8, take_done ha]
    · simp [c8, hn]
  · subst h
    refine ⟨.inl, fun h => h.elim id fun ⟨h1, h2⟩ => ?_⟩
    subst h1
    simp [c0, c1, c2, c3, c4, c5, c6, c7, c8] at h2

theorem sampleHas_err {s : SampleSlots D} {x : String × Json D} {e : SerdeError} (h : sampleEntry s x = .error e) :
    ∃ f ∈ ([("timestamp", BlameNumber), ("x", BlameNumber), ("y", BlameNumber), ("heading",
      BlameNumber), ("velocity_x", BlameNumber), ("velocity_y", BlameNumber),
      ("angular_velocity", BlameNumber), ("module_forces_x", BlameList BlameNumber),
      ("module_forces_y", BlameList BlameNumber)] :
      List (String × (SerdeError → Json D → Prop))), x.1 = f.1 ∧
      ((sampleHas s f.1 = true ∧ e = .duplicateField f.1) ∨ f.2 e x.2) := by
  unfold sampleEntry at h
  split_ifs at h with c0 c1 c2 c3 c4 c5 c6 c7 c8 <;>
    simp only [bind_err, pure_err, and_false, exists_false, or_false, take_err] at h
  · refine ⟨("timestamp", BlameNumber), by simp, c0, ?_⟩
    rcases h with h | h
    · exact .inl ⟨by simpa [sampleHas] using h.1, h.2⟩
    · exact .inr (getNumber_blame h.2)
  · refine ⟨("x", BlameNumber), by simp, c1, ?_⟩
    rcases h with h | h
    · exact .inl ⟨by simpa [sampleHas] using h.1, h.2⟩
    · exact .inr (getNumber_blame h.2)
  · refine ⟨("y", BlameNumber), by simp, c2, ?_⟩
    rcases h with h | h
    · exact .inl ⟨by simpa [sampleHas] using h.1, h.2⟩
    · exact .inr (getNumber_blame h.2)
  · refine ⟨("heading", BlameNumber), by simp, c3, ?_⟩
    rcases h with h | h
    · exact .inl ⟨by simpa [sampleHas] using h.1, h.2⟩
    · exact .inr (getNumber_blame h.2)
  · refine ⟨("velocity_x", BlameNumber), by simp, c4, ?_⟩
    rcases h with h | h
    · exact .inl ⟨by simpa [sampleHas] using h.1, h.2⟩
    · exact .inr (getNumber_blame h.2)
  · refine ⟨("velocity_y", BlameNumber), by simp, c5, ?_⟩
    rcases h with h | h
    · exact .inl ⟨by simpa [sampleHas] using h.1, h.2⟩
    · exact .inr (getNumber_blame h.2)
  · refine ⟨("angular_velocity", BlameNumber), by simp, c6, ?_⟩
    rcases h with h | h
    · exact .inl ⟨by simpa [sampleHas] using h.1, h.2⟩
    · exact .inr (getNumber_blame h.2)
  · refine ⟨("module_forces_x", BlameList BlameNumber), by simp, c7, ?_⟩
    rcases h with h | h
    · exact .inl ⟨by simpa [sampleHas] using h.1, h.2⟩
    · exact .inr (getVec_blame (fun _ _ => getNumber_blame) h.2)
  · refine ⟨("module_forces_y", BlameList BlameNumber), by simp, c8, ?_⟩
    rcases h with h | h
    · exact .inl ⟨by simpa [sampleHas] using h.1, h.2⟩
    · exact .inr (getVec_blame (fun _ _ => getNumber_blame) h.2)

theorem getSample_blame {j : Json D} {e : SerdeError} (h : getSample j = .error e) :
    BlameSample e j := by
  cases j with
  | object l =>
    obtain ⟨h1, h2⟩ := object_blame (D := D)
      [("timestamp", BlameNumber), ("x", BlameNumber), ("y", BlameNumber), ("heading",
      BlameNumber), ("velocity_x", BlameNumber), ("velocity_y", BlameNumber),
      ("angular_velocity", BlameNumber), ("module_forces_x", BlameList BlameNumber),
      ("module_forces_y", BlameList BlameNumber)]
      sampleEntry sampleHas (fun _ _ _ => sampleHas_ok) (fun _ _ _ => sampleHas_err)
      {} (by simp [sampleHas]) l
    refine .inl ⟨l, rfl, ?_⟩
    simp only [getSample, bind_err, pure_err, need_err, and_false, exists_false, or_false] at h
    rcases h with h | ⟨s, hs, ⟨hm, he⟩ | ⟨-, -, ⟨hm, he⟩ | ⟨-, -, ⟨hm, he⟩ | ⟨-, -, ⟨hm, he⟩ | ⟨-, -, ⟨hm, he⟩ | ⟨-, -, ⟨hm, he⟩ | ⟨-, -, ⟨hm, he⟩ | ⟨-, -, ⟨hm, he⟩ | ⟨-, -, ⟨hm, he⟩⟩⟩⟩⟩⟩⟩⟩⟩⟩
    · exact .inr (h1 e h)
    · exact .inl ⟨("timestamp", BlameNumber), by simp, he,
        h2 s hs ("timestamp", BlameNumber) (by simp) (by simp [sampleHas, hm])⟩
    · exact .inl ⟨("x", BlameNumber), by simp, he,
        h2 s hs ("x", BlameNumber) (by simp) (by simp [sampleHas, hm])⟩
    · exact .inl ⟨("y", BlameNumber), by simp, he,
        h2 s hs ("y", BlameNumber) (by simp) (by simp [sampleHas, hm])⟩
    · exact .inl ⟨("heading", BlameNumber), by simp, he,
        h2 s hs ("heading", BlameNumber) (by simp) (by simp [sampleHas, hm])⟩
    · exact .inl ⟨("velocity_x", BlameNumber), by simp, he,
        h2 s hs ("velocity_x", BlameNumber) (by simp) (by simp [sampleHas, hm])⟩
    · exact .inl ⟨("velocity_y", BlameNumber), by simp, he,
        h2 s hs ("velocity_y", BlameNumber) (by simp) (by simp [sampleHas, hm])⟩
    · exact .inl ⟨("angular_velocity", BlameNumber), by simp, he,
        h2 s hs ("angular_velocity", BlameNumber) (by simp) (by simp [sampleHas, hm])⟩
    · exact .inl ⟨("module_forces_x", BlameList BlameNumber), by simp, he,
        h2 s hs ("module_forces_x", BlameList BlameNumber) (by simp) (by simp [sampleHas, hm])⟩
    · exact .inl ⟨("module_forces_y", BlameList BlameNumber), by simp, he,
        h2 s hs ("module_forces_y", BlameList BlameNumber) (by simp) (by simp [sampleHas, hm])⟩
  | array l =>
    simp only [getSample, bind_err] at h
    rcases h with h | ⟨_, g0, h | ⟨_, g1, h | ⟨_, g2, h | ⟨_, g3, h | ⟨_, g4, h | ⟨_, g5, h | ⟨_, g6, h | ⟨_, g7, h | ⟨_, g8, h⟩⟩⟩⟩⟩⟩⟩⟩⟩
    · exact nth_blame rfl (fun _ _ => getNumber_blame) h (Nat.zero_le _)
    · exact nth_blame rfl (fun _ _ => getNumber_blame) h (nth_long g0)
    · exact nth_blame rfl (fun _ _ => getNumber_blame) h (nth_long g1)
    · exact nth_blame rfl (fun _ _ => getNumber_blame) h (nth_long g2)
    · exact nth_blame rfl (fun _ _ => getNumber_blame) h (nth_long g3)
    · exact nth_blame rfl (fun _ _ => getNumber_blame) h (nth_long g4)
    · exact nth_blame rfl (fun _ _ => getNumber_blame) h (nth_long g5)
    · exact nth_blame rfl (fun _ _ => getVec_blame fun _ _ => getNumber_blame) h (nth_long g6)
    · exact nth_blame rfl (fun _ _ => getVec_blame fun _ _ => getNumber_blame) h (nth_long g7)
    · exact full_blame rfl h
  | _ =>
    simp [getSample] at h
    exact .inr (.inr ⟨h.symm, by simp, by simp⟩)

theorem getTrajectory_blame {j : Json D} {e : SerdeError} (h : getTrajectory j = .error e) :
    BlameTrajectory e j := by
  cases j with
  | object l =>
    obtain ⟨h1, h2⟩ := object_blame (D := D) [("samples", BlameList BlameSample)] trajectoryEntry
      (fun s n => decide (n = "samples") && s.isSome)
      (by
        intro s x s' h n
        unfold trajectoryEntry at h
        split_ifs at h with c
        · simp [c, take_done h]
          tauto
        · obtain rfl := pure_ok.mp h
          simp
          rintro rfl
          tauto)
      (by
        intro s x e h
        unfold trajectoryEntry at h
        split_ifs at h with c
        · exact ⟨("samples", BlameList BlameSample), by simp, c, (take_err.mp h).imp (by simp)
            fun h => getVec_blame (fun _ _ => getSample_blame) h.2⟩
        · exact absurd h (by simp [pure, Except.pure]))
      none (by simp) l
    refine .inl ⟨l, rfl, ?_⟩
    simp only [getTrajectory, bind_err, need_err] at h
    rcases h with h | ⟨s, hs, hm, he⟩
    · exact .inr (h1 e h)
    · exact .inl ⟨("samples", BlameList BlameSample), by simp, he,
        h2 s hs ("samples", BlameList BlameSample) (by simp) (by simp [hm])⟩
  | array l =>
    simp only [getTrajectory, bind_err] at h
    rcases h with h | ⟨_, g, h⟩
    · exact nth_blame rfl (fun _ _ => getVec_blame fun _ _ => getSample_blame) h (Nat.zero_le _)
    · exact full_blame rfl h
  | _ =>
    simp [getTrajectory] at h
    exact .inr (.inr ⟨h.symm, by simp, by simp⟩)

/-- C107: what a rejected document is reported for is wrong with it. -/
theorem C107_errors (j : Json D) (e : SerdeError) :
    (getModule j = .error e → BlameModule e j) ∧ (getDrivetrain j = .error e → BlameDrivetrain e j) ∧
    (getPose j = .error e → BlamePose e j) ∧ (getSample j = .error e → BlameSample e j) ∧
    (getTrajectory j = .error e → BlameTrajectory e j) :=
  ⟨getModule_blame, getDrivetrain_blame, getPose_blame, getSample_blame, getTrajectory_blame⟩

/-- A pose without `y`, one with two headings, one of two numbers and one with a string. -/
example : getPose (.object [("x", .number (1 : Int)), ("heading", .number 3)]) =
      .error (.missingField "y") ∧
    getPose (.object [("heading", .number (1 : Int)), ("heading", .number 1)]) =
      .error (.duplicateField "heading") ∧
    getPose (.array [.number (1 : Int), .number 2]) = .error (.invalidLength 2) ∧
    getPose (.array [.number (1 : Int), .string "2"]) = .error .invalidType :=
  ⟨rfl, rfl, rfl, rfl⟩

end Trajopt.Props
