import Verif.Lemmas.WideConstraints

/-!
# The generated problem with infinities and NaN
-/

set_option autoImplicit false

namespace Trajopt.Props
open Spec Wide

theorem within_mono {l : Wide} {x y : ℝ} (h : x ≤ y) (hy : Within l y) : Within l x := by
  cases l with
  | nan => exact hy
  | inf s => trivial
  | fin m => exact h.trans hy

theorem within_iff (l : Wide) (z : ℂ) :
    (l * l - fin (z.re * z.re + z.im * z.im)).Nonneg ↔ Within l ‖z‖ := by
  cases l with
  | nan => simp [Nonneg, Within]
  | inf s => simp [Nonneg, Within]
  | fin r =>
    have := norm_le_iff z.re z.im r
    simpa [Nonneg, Within] using this

section
variable (σ : ℕ → ℝ) (m n : ℕ)

theorem powerCons_wide (j : ℕ) (m₀ : SwerveModule ℝ) (md : SwerveModule Wide)
    (h : md.translation = m₀.translation.wide) :
    (∀ c ∈ powerCons (sampleVars m n) (forceVars m n j) md, c.Test (finite σ)) ↔
      Within (md.wheelRadius * md.wheelMaxAngularVelocity)
        ‖wheelVelocity (decodeSample σ (sampleVars m n)) m₀‖ ∧
      Within (md.wheelMaxTorque / md.wheelRadius) ‖forceOf σ m n j‖ := by
  rw [← within_iff, ← within_iff]
  simp only [powerCons, List.mem_cons, List.not_mem_nil, or_false, forall_eq_or_imp, forall_eq,
    Con.Test, Translation2.squaredNorm, Translation2.rotateBy, Rotation2.neg, sampleVars, forceVars,
    value_add, value_sub, value_mul, value_neg, value_var, value_const, h, Translation2.wide, finite,
    fin_mul, fin_neg, fin_sub, fin_add]
  refine and_congr ?_ Iff.rfl
  have e : ∀ a b : ℝ, a = b → ∀ x : Wide, (x - fin a).Nonneg ↔ (x - fin b).Nonneg := by
    rintro a _ rfl x; rfl
  apply e
  simp only [wheelVelocity, decodeSample, evalVec, vec, eval_var]
  simp
  ring

theorem powerList_of_wide (mods : List (SwerveModule Wide)) (i : ℕ)
    (hp : ∀ md ∈ mods, ∃ p : Translation2 ℝ, md.translation = p.wide)
    (h : ∀ c ∈ powerList m n mods i, c.Test (finite σ)) :
    ∃ mods₀, List.Forall₂ Weaker mods₀ mods ∧ ∀ c ∈ powerList m n mods₀ i, c.Holds σ := by
  induction mods generalizing i with
  | nil => exact ⟨[], .nil, by simp [powerList]⟩
  | cons md rest ih =>
    rw [powerList, List.forall_mem_append] at h
    obtain ⟨rest₀, hw, hr⟩ := ih (i + 1) (fun md hmd => hp md (by simp [hmd])) h.2
    obtain ⟨p, hp⟩ := hp md (by simp)
    set m₀ : SwerveModule ℝ := ⟨p, 1, ‖wheelVelocity (decodeSample σ (sampleVars m n)) ⟨p, 0, 0, 0⟩‖,
      ‖forceOf σ m n i‖⟩ with hm₀
    have h1 : maxSpeed m₀ = ‖wheelVelocity (decodeSample σ (sampleVars m n)) m₀‖ := by
      simp only [maxSpeed, hm₀, one_mul, abs_norm]; rfl
    have h2 : maxForce m₀ = ‖forceOf σ m n i‖ := by
      simp only [maxForce, hm₀, div_one, abs_norm]
    have h3 := (powerCons_wide σ m n i m₀ md hp).mp h.1
    refine ⟨m₀ :: rest₀, .cons ⟨hp, by rw [h1]; exact h3.1, by rw [h2]; exact h3.2⟩ hw, ?_⟩
    rw [powerList, List.forall_mem_append, powerCons_iff]
    exact ⟨⟨h1.ge, h2.ge⟩, hr⟩

theorem powerList_to_wide {mods₀ : List (SwerveModule ℝ)} {mods : List (SwerveModule Wide)}
    (hw : List.Forall₂ Weaker mods₀ mods) (i : ℕ) (h : ∀ c ∈ powerList m n mods₀ i, c.Holds σ) :
    ∀ c ∈ powerList m n mods i, c.Test (finite σ) := by
  induction hw generalizing i with
  | nil => simp [powerList]
  | cons hm _ ih =>
    rw [powerList, List.forall_mem_append, powerCons_iff] at h
    rw [powerList, List.forall_mem_append, powerCons_wide σ m n i _ _ hm.place]
    exact ⟨⟨within_mono h.1.1 hm.speed, within_mono h.1.2 hm.force⟩, ih (i + 1) h.2⟩

theorem accumulate_wide (F : List ℕ) : (accumulate F : Expr Wide) = (accumulate F : Expr ℝ).map fin := by
  have : ∀ acc : Expr ℝ, (F.foldl (fun acc f => acc + .var f) acc).map fin =
      F.foldl (fun acc f => acc + .var f) (acc.map fin) := by
    induction F with
    | nil => intro acc; rfl
    | cons f rest ih => intro acc; rw [List.foldl_cons, ih]; rfl
  rw [accumulate, accumulate, this]; rfl

theorem torqueExpr_wide {mods₀ : List (SwerveModule ℝ)} {mods : List (SwerveModule Wide)}
    (hw : List.Forall₂ Weaker mods₀ mods) (i : ℕ) (tau : Expr ℝ) :
    torqueExpr m n mods i (tau.map fin) = (torqueExpr m n mods₀ i tau).map fin := by
  induction hw generalizing i tau with
  | nil => rfl
  | cons hm _ ih =>
    rw [torqueExpr, torqueExpr, ← ih, hm.place]
    rfl

theorem torqueExpr_isFin (mods : List (SwerveModule Wide)) (i : ℕ) (tau : Expr Wide)
    (h : ((torqueExpr m n mods i tau).value (finite σ)).IsFin) :
    (tau.value (finite σ)).IsFin ∧ ∀ md ∈ mods, ∃ p : Translation2 ℝ, md.translation = p.wide := by
  induction mods generalizing i tau with
  | nil => exact ⟨h, by simp⟩
  | cons md rest ih =>
    rw [torqueExpr] at h
    obtain ⟨h1, h2⟩ := ih _ _ h
    simp only [value_add, value_sub, value_mul, value_const, isFin_add, isFin_sub, isFin_mul,
      Translation2.cross, Translation2.rotateBy, Translation2.toV] at h1
    obtain ⟨ht, ⟨⟨⟨hx, -⟩, hy, -⟩, -⟩, -⟩ := h1
    refine ⟨ht, ?_⟩
    rw [List.forall_mem_cons]
    exact ⟨wide_of_data (by simp [Translation2.data, hx, hy]), h2⟩
end

theorem eqs_wide (σ : ℕ → ℝ) (n : ℕ) {dr₀ : SwerveDrivetrain ℝ} {dr : SwerveDrivetrain Wide}
    (h1 : dr.mass = fin dr₀.mass) (h2 : dr.moi = fin dr₀.moi)
    (hw : List.Forall₂ Weaker dr₀.modules dr.modules) :
    (∀ c ∈ dynCons dr n, c.Test (finite σ)) ↔
      (∀ c ∈ powerList dr.modules.length n dr.modules 0, c.Test (finite σ)) ∧
      ∀ c ∈ (dynCons dr₀ n).drop (powerList dr.modules.length n dr₀.modules 0).length, c.Holds σ := by
  have hl := hw.length_eq
  simp only [dynCons, List.forall_mem_append, hl, List.drop_left]
  refine and_congr Iff.rfl ?_
  rw [← tests_map]
  · rw [accumulate_wide, accumulate_wide, show (Num.lit 0 : Expr Wide) =
      (Num.lit 0 : Expr ℝ).map fin from by simp [Num.lit, Expr.map], torqueExpr_wide _ _ hw, h1, h2]
    rfl
  · obtain ⟨hx, -⟩ := foldl_add_eval σ (fun j => n * stride dr.modules.length + 10 + 2 * j)
      dr.modules.length
    obtain ⟨hy, -⟩ := foldl_add_eval σ (fun j => n * stride dr.modules.length + 11 + 2 * j)
      dr.modules.length
    obtain ⟨ht, -⟩ := torqueExpr_eval σ dr.modules.length n dr₀.modules 0 (Num.lit 0) trivial
    simp [Con.Defined, accumulate, hx, hy, ht, sampleVars]

theorem dynCons_wide (σ : ℕ → ℝ) (dr : SwerveDrivetrain Wide) (n : ℕ) :
    (∀ c ∈ dynCons dr n, c.Test (finite σ)) ↔
      DynamicsW dr (decodeSample σ (sampleVars dr.modules.length n))
        (forceOf σ dr.modules.length n) := by
  constructor
  · intro h
    have h' := h
    simp only [dynCons, List.forall_mem_append, List.forall_mem_cons, Con.Test] at h'
    obtain ⟨hp, hx, -, ht, -⟩ := h'
    obtain ⟨-, hm⟩ := sub_eq_fin hx
    obtain ⟨ht, hi⟩ := sub_eq_fin ht
    rw [value_mul, isFin_mul] at hm hi
    obtain ⟨mass, hm⟩ := hm.1
    obtain ⟨moi, hi⟩ := hi.1
    obtain ⟨mods₀, hw, hp'⟩ := powerList_of_wide σ _ n _ 0 (torqueExpr_isFin σ _ n _ _ _ ht).2 hp
    refine ⟨⟨mass, moi, mods₀⟩, hm, hi, hw, ?_⟩
    have := ((eqs_wide σ n (dr₀ := ⟨mass, moi, mods₀⟩) hm hi hw).mp h).2
    have e := dynCons_iff σ ⟨mass, moi, mods₀⟩ n
    rw [hw.length_eq] at e
    rw [← e]
    intro c hc
    rw [← List.take_append_drop (powerList dr.modules.length n mods₀ 0).length
      (dynCons ⟨mass, moi, mods₀⟩ n), List.mem_append] at hc
    rcases hc with hc | hc
    · simp only [dynCons, hw.length_eq, List.take_left'] at hc
      exact hp' c hc
    · exact this c hc
  · rintro ⟨dr₀, hm, hi, hw, hd⟩
    rw [eqs_wide σ n hm hi hw]
    rw [← hw.length_eq] at hd
    rw [← dynCons_iff] at hd
    refine ⟨powerList_to_wide σ _ n hw 0 ?_, fun c hc => hd c (List.mem_of_mem_drop hc)⟩
    intro c hc
    refine hd c ?_
    simp only [dynCons, List.mem_append, hw.length_eq]
    exact .inl hc

/-! ### the step cap -/

/-- The number, 0 for infinities and NaN. -/
def real : Wide → ℝ
  | .fin r => r
  | _ => 0

/-- A module at the finite place. -/
def placeOf (md : SwerveModule Wide) : SwerveModule ℝ :=
  ⟨⟨real md.translation.x, real md.translation.y⟩, 0, 0, 0⟩

theorem placeOf_eq {md : SwerveModule Wide} (h : ∃ p : Translation2 ℝ, md.translation = p.wide) :
    md.translation = (placeOf md).translation.wide := by
  obtain ⟨p, hp⟩ := h
  rw [placeOf, hp]; rfl

theorem minWidthStep_wide (w : Option ℝ) (v : ℝ) :
    minWidthStep (w.map fin) (fin v) = (minWidthStep w v).map fin := by
  cases w with
  | none => rfl
  | some w =>
    have e : Dbl.lt (fin v) (fin w) = Dbl.lt v w := by
      rw [Bool.eq_iff_iff, real_lt]
      change Wide.lt (fin v) (fin w) = true ↔ _
      simp [Wide.lt]
    simp only [minWidthStep, Dbl.min, Option.map_some, e]
    split <;> rfl

theorem minWidthLoop_wide (mods : List (SwerveModule Wide))
    (hp : ∀ md ∈ mods, ∃ p : Translation2 ℝ, md.translation = p.wide) (w : Option ℝ) :
    minWidthLoop (w.map fin) mods = (minWidthLoop w (mods.map placeOf)).map fin := by
  induction mods generalizing w with
  | nil => rfl
  | cons a rest ih =>
    cases rest with
    | nil => rfl
    | cons b rest =>
      rw [List.map_cons, List.map_cons, minWidthLoop, minWidthLoop, placeOf_eq (hp a (by simp)),
        placeOf_eq (hp b (by simp)), ← List.map_cons, ← ih fun md hmd => hp md (by simp [hmd])]
      have ha : ∀ x : ℝ, Dbl.abs (fin x) = fin (Dbl.abs x) := fun x => rfl
      have he : ∀ x : ℝ, Dbl.eq (fin (Dbl.abs x)) (Num.lit 0) = Dbl.eq (Dbl.abs x) (Num.lit 0) := by
        intro x
        rw [fin_lit, fin_eq]
        simp
      simp only [Translation2.wide, fin_sub, ha, he, minWidthStep_wide]
      congr 1
      split_ifs <;> simp [minWidthStep_wide]

theorem stepCap_test (σ : ℕ → ℝ) (w : Option ℝ) (v : ℕ) (md : SwerveModule Wide) :
    (stepCap (w.map fin) v md).Test (finite σ) ↔
      .fin (σ v) * md.wheelRadius * md.wheelMaxAngularVelocity = Wide.inf true ∨
      ∃ x, .fin (σ v) * md.wheelRadius * md.wheelMaxAngularVelocity = Wide.fin x ∧ Capped x w := by
  cases w with
  | none =>
    simp only [stepCap, Option.map_none, Con.Test, value_mul, value_var, value_const, finite, Capped,
      and_true]
    generalize fin (σ v) * md.wheelRadius * md.wheelMaxAngularVelocity = t
    rcases t with _ | _ | _ <;> simp [Nonneg, inf_sub_inf]
    rename_i s
    cases s <;> simp
  | some w =>
    simp only [stepCap, Option.map_some, Con.Test, value_mul, value_var, value_const, finite, Capped]
    generalize fin (σ v) * md.wheelRadius * md.wheelMaxAngularVelocity = t
    rcases t with _ | _ | _ <;> simp [Nonneg]

theorem gap_place (dr : SwerveDrivetrain Wide)
    (hp : ∀ md ∈ dr.modules, ∃ p : Translation2 ℝ, md.translation = p.wide) (g : ℝ) :
    Gap ⟨0, 0, dr.modules.map placeOf⟩ g ↔ GapW dr g := by
  simp only [Gap, GapW, ← List.map_tail, List.zip_map, List.mem_map]
  refine and_congr Iff.rfl ⟨?_, ?_⟩
  · rintro ⟨a, b, ⟨⟨p, q⟩, hpq, he⟩, h⟩
    simp only [Prod.map_apply, Prod.mk.injEq] at he
    obtain ⟨rfl, rfl⟩ := he
    have h1 := List.of_mem_zip hpq
    exact ⟨_, _, hpq, _, _, placeOf_eq (hp _ h1.1), placeOf_eq (hp _ (List.mem_of_mem_tail h1.2)), h⟩
  · rintro ⟨a, b, hab, p, q, ha, hb, h⟩
    refine ⟨_, _, ⟨_, hab, rfl⟩, ?_⟩
    simp only [placeOf, ha, hb]
    exact h

theorem stepW_iff (σ : ℕ → ℝ) (dr : SwerveDrivetrain Wide)
    (hp : ∀ md ∈ dr.modules, ∃ p : Translation2 ℝ, md.translation = p.wide) (v : ℕ) :
    (∀ md ∈ dr.modules, (stepCap (minWidth dr.modules) v md).Test (finite σ)) ↔ StepW dr (σ v) := by
  refine forall₂_congr fun md _ => ?_
  have e := minWidthLoop_wide dr.modules hp none
  rw [Option.map_none] at e
  rw [minWidth, e, stepCap_test]
  refine or_congr Iff.rfl (exists_congr fun x => and_congr Iff.rfl ?_)
  have h1 : (stepCap (minWidth (dr.modules.map placeOf)) 0 ⟨⟨0, 0⟩, 1, 1, 0⟩).Holds (fun _ => x) ↔
      Capped x (minWidthLoop none (dr.modules.map placeOf)) := by
    rw [stepCap.eq_def, minWidth]
    cases minWidthLoop none (dr.modules.map placeOf) <;> simp [Con.Holds, Capped]
  rw [← h1, stepCap_iff (fun _ => x) ⟨0, 0, dr.modules.map placeOf⟩]
  simp only [mul_one, gap_place dr hp]

/-! ### the whole problem -/

theorem kinCons_wide (σ : ℕ → ℝ) (m n n' v : ℕ) :
    (∀ c ∈ kinCons (D := Wide) (sampleVars m n) (sampleVars m n') (.var v), c.Test (finite σ)) ↔
      Interval (σ v) (decodeSample σ (sampleVars m n)) (decodeSample σ (sampleVars m n')) := by
  rw [← kinCons_iff σ _ _ _ (sampleVars_defined σ _ _) (sampleVars_defined σ _ _), ← tests_map]
  · have e : (kinCons (D := ℝ) (sampleVars m n) (sampleVars m n') (.var v)).map (Con.map fin) =
        kinCons (sampleVars m n) (sampleVars m n') (.var v) := by
      rfl
    rw [e]
  · simp [kinCons, Translation2.eqCons, Rotation2.eqCons, Con.Defined, Translation2.add,
      Translation2.smul, Rotation2.sub, Rotation2.add, Rotation2.neg, Rotation2.rotateBy,
      Rotation2.ofAngle, sampleVars]

theorem dynamicsW_forces {dr : SwerveDrivetrain Wide} {s : State} {F F' : ℕ → ℂ}
    (h : ∀ j < dr.modules.length, F j = F' j) (o : DynamicsW dr s F) : DynamicsW dr s F' := by
  obtain ⟨dr₀, hm, hi, hw, hd⟩ := o
  exact ⟨dr₀, hm, hi, hw, dynamics_forces (fun j hj => h j (hw.length_eq ▸ hj)) hd⟩

theorem dynamicsW_places {dr : SwerveDrivetrain Wide} {s : State} {F : ℕ → ℂ} (h : DynamicsW dr s F) :
    ∀ md ∈ dr.modules, ∃ p : Translation2 ℝ, md.translation = p.wide := by
  obtain ⟨dr₀, -, -, hw, -⟩ := h
  intro md hmd
  obtain ⟨i, hi, rfl⟩ := List.getElem_of_mem hmd
  exact ⟨_, (hw.get (hw.length_eq ▸ hi) hi).place⟩

theorem testW_closed (b : Builder Wide) (dr : SwerveDrivetrain Wide) (sol : SwerveSolution Wide)
    (handle : ℤ) (σ : ℕ → ℝ) :
    (∀ c ∈ (closedGenerator b.path dr b.controlIntervalCounts sol handle).problem.cons,
      c.Test (finite σ)) ↔
      ObeysW (table b) dr
        (decode (closedGenerator b.path dr b.controlIntervalCounts sol handle).vars σ) := by
  have key := holds_with b dr sol handle σ (fun c => c.Test (finite σ))
    (fun x => ∀ md ∈ dr.modules, (stepCap (minWidth dr.modules) 0 md).Test (finite fun _ => x))
    (DynamicsW dr) MeaningW ?_ ?_ (fun n n' v => kinCons_wide σ _ n n' v) (dynCons_wide σ dr)
    (fun s F F' h o => dynamicsW_forces h o) (fun c n => test_iff σ _ n c)
  · rw [key, ObeysW]
    by_cases hp : ∀ md ∈ dr.modules, ∃ p : Translation2 ℝ, md.translation = p.wide
    · constructor <;> intro h
      · exact obeysWith_mono h (fun x hx => (stepW_iff (fun _ => x) dr hp 0).mp hx) (fun _ _ h => h)
          (fun _ _ h => h)
      · exact obeysWith_mono h (fun x hx => (stepW_iff (fun _ => x) dr hp 0).mpr hx) (fun _ _ h => h)
          (fun _ _ h => h)
    · constructor <;> intro h <;>
        exact absurd (dynamicsW_places (h.dynamics 0 (by simp [sampleCount]))) hp
  · intro v
    refine forall₂_congr fun md _ => ?_
    rw [stepCap.eq_def, stepCap.eq_def]
    cases minWidth dr.modules <;> rfl
  · intro v
    simp [Con.Test, value_var, value_lit, finite, Nonneg]

end Trajopt.Props
