import Verif.Props.Separation
import Mathlib.Topology.Connected.Clopen
import Mathlib.Topology.Algebra.GroupWithZero
import Mathlib.Analysis.Convex.PathConnected
import Mathlib.Analysis.Normed.Affine.Convex

/-!
# Outlines that move
-/

set_option autoImplicit false

namespace Trajopt

open Spec Props

/-- A point on a chord between two points at distance `d` from `p`. -/
theorem chord {a b p : ℂ} {d s t : ℝ} (hd : 0 ≤ d) (ha : d ≤ dist a p) (hb : d ≤ dist b p)
    (hs : dist a b ≤ s) (h0 : 0 ≤ t) (h1 : t ≤ 1) :
    d ^ 2 - s ^ 2 / 4 ≤ dist ((1 - t : ℝ) * a + (t : ℝ) * b) p ^ 2 := by
  have key : dist ((1 - t : ℝ) * a + (t : ℝ) * b) p ^ 2 =
      (1 - t) * dist a p ^ 2 + t * dist b p ^ 2 - t * (1 - t) * dist a b ^ 2 := by
    simp only [Complex.dist_eq, Complex.sq_norm, Complex.normSq_apply]
    simp
    ring
  have e1 : d ^ 2 ≤ dist a p ^ 2 := pow_le_pow_left₀ hd ha 2
  have e2 : d ^ 2 ≤ dist b p ^ 2 := pow_le_pow_left₀ hd hb 2
  have e3 : dist a b ^ 2 ≤ s ^ 2 := pow_le_pow_left₀ dist_nonneg hs 2
  have e4 : t * (1 - t) ≤ 1 / 4 := by nlinarith [sq_nonneg (2 * t - 1)]
  have e5 : 0 ≤ t * (1 - t) := mul_nonneg h0 (by linarith)
  rw [key]
  nlinarith [mul_le_mul_of_nonneg_left e1 (sub_nonneg.mpr h1), mul_le_mul_of_nonneg_left e2 h0,
    mul_le_mul_of_nonneg_left e3 e5, mul_le_mul_of_nonneg_right e4 (sq_nonneg s)]

theorem mem_blend {f f' : Translation2 ℝ → ℂ} {t : ℝ} {a b : Translation2 ℝ} {z : ℂ}
    (hz : z ∈ segment ℝ (blend f f' t a) (blend f f' t b)) :
    ∃ u : ℝ, 0 ≤ u ∧ u ≤ 1 ∧ z = (1 - t : ℝ) * ((1 - u : ℝ) * f a + (u : ℝ) * f b) +
      (t : ℝ) * ((1 - u : ℝ) * f' a + (u : ℝ) * f' b) := by
  rw [segment_eq_image] at hz
  obtain ⟨u, ⟨h0, h1⟩, rfl⟩ := hz
  refine ⟨u, h0, h1, ?_⟩
  simp only [blend, Complex.real_smul]
  push_cast
  ring

theorem mem_seg' {a b : ℂ} {u : ℝ} (h0 : 0 ≤ u) (h1 : u ≤ 1) :
    (1 - u : ℝ) * a + (u : ℝ) * b ∈ segment ℝ a b := by
  rw [segment_eq_image]
  exact ⟨u, ⟨h0, h1⟩, by simp [Complex.real_smul]⟩

/-- Between points that move little, points move little. -/
theorem dist_mix {a b a' b' : ℂ} {s u : ℝ} (h0 : 0 ≤ u) (h1 : u ≤ 1) (ha : dist a a' ≤ s)
    (hb : dist b b' ≤ s) :
    dist ((1 - u : ℝ) * a + (u : ℝ) * b) ((1 - u : ℝ) * a' + (u : ℝ) * b') ≤ s := by
  rw [Complex.dist_eq] at *
  have : (1 - u : ℝ) * a + (u : ℝ) * b - ((1 - u : ℝ) * a' + (u : ℝ) * b') =
      (1 - u : ℝ) * (a - a') + (u : ℝ) * (b - b') := by ring
  rw [this]
  refine (norm_add_le _ _).trans ?_
  rw [norm_mul, norm_mul, Complex.norm_real, Complex.norm_real, Real.norm_of_nonneg h0,
    Real.norm_of_nonneg (by linarith)]
  nlinarith [mul_le_mul_of_nonneg_left ha (sub_nonneg.mpr h1), mul_le_mul_of_nonneg_left hb h0]

section
variable {f f' g : Translation2 ℝ → ℂ} {ps qs : List (Translation2 ℝ)} {d s : ℝ}

theorem edges_ends {ps : List (Translation2 ℝ)} {e : Translation2 ℝ × Translation2 ℝ}
    (he : e ∈ edges ps) : e.1 ∈ ps ∧ e.2 ∈ ps := by
  have hps : ps ≠ [] := by rintro rfl; simp [edges] at he
  rw [edges_eq ps hps] at he
  rcases List.mem_append.mp he with h | h
  · obtain ⟨h1, h2⟩ := List.of_mem_zip (a := e.1) (b := e.2) h
    exact ⟨h1, List.mem_of_mem_tail h2⟩
  · split at h
    · simp only [List.mem_singleton] at h
      subst h
      exact ⟨List.getElem_mem _, List.getElem_mem _⟩
    · simp at h

/-- Corners of each are at least `d` away from the other. -/
structure Clear (f g : Translation2 ℝ → ℂ) (ps qs : List (Translation2 ℝ)) (d : ℝ) : Prop where
  edge : ∀ e ∈ edges ps, ∀ q ∈ qs, ∀ z ∈ segment ℝ (f e.1) (f e.2), d ≤ dist z (g q)
  edge' : ∀ e ∈ edges qs, ∀ p ∈ ps, ∀ z ∈ segment ℝ (g e.1) (g e.2), d ≤ dist z (f p)
  point : ∀ q, qs = [q] → ∀ p ∈ ps, d ≤ dist (f p) (g q)

/-- In between, corners are not much closer. -/
theorem Clear.blend (hd : 0 ≤ d) (h : Clear f g ps qs d) (h' : Clear f' g ps qs d)
    (hs : ∀ p ∈ ps, dist (f p) (f' p) ≤ s) {t : ℝ} (h0 : 0 ≤ t) (h1 : t ≤ 1) :
    Clear (blend f f' t) g ps qs (Real.sqrt (d ^ 2 - s ^ 2 / 4)) := by
  have root : ∀ {x : ℝ}, 0 ≤ x → d ^ 2 - s ^ 2 / 4 ≤ x ^ 2 → Real.sqrt (d ^ 2 - s ^ 2 / 4) ≤ x :=
    fun hx h => Real.sqrt_le_iff.mpr ⟨hx, h⟩
  refine ⟨fun e he q hq z hz => ?_, fun e he p hp z hz => ?_, fun q hq p hp => ?_⟩
  · obtain ⟨u, u0, u1, rfl⟩ := mem_blend hz
    obtain ⟨e1, e2⟩ := edges_ends he
    exact root dist_nonneg (chord hd (h.edge e he q hq _ (mem_seg' u0 u1))
      (h'.edge e he q hq _ (mem_seg' u0 u1)) (dist_mix u0 u1 (hs _ e1) (hs _ e2)) h0 h1)
  · rw [dist_comm]
    refine root dist_nonneg (chord hd ?_ ?_ (hs p hp) h0 h1)
    · rw [dist_comm]; exact h.edge' e he p hp z hz
    · rw [dist_comm]; exact h'.edge' e he p hp z hz
  · exact root dist_nonneg (chord hd (h.point q hq p hp) (h'.point q hq p hp) (hs p hp) h0 h1)

theorem Clear.apart (h : Clear f g ps qs d) (hps : ps ≠ []) (hqs : qs ≠ [])
    (hno : NoCrossing f g ps qs) : ∀ z ∈ outline f ps, ∀ w ∈ outline g qs, d ≤ dist z w :=
  outlines_apart f g ps qs d hps hqs hno h.edge h.edge' h.point

/-- A shape whose corners move less than twice the clearance does not come to cross the other. -/
theorem noCrossing_blend (hd : 0 ≤ d) (hps : ps ≠ []) (hqs : qs ≠ []) (h : Clear f g ps qs d)
    (h' : Clear f' g ps qs d) (hs : ∀ p ∈ ps, dist (f p) (f' p) ≤ s) (hsd : s < 2 * d)
    (hno : NoCrossing f g ps qs) {t : ℝ} (h0 : 0 ≤ t) (h1 : t ≤ 1) :
    NoCrossing (blend f f' t) g ps qs := by
  have hs0 : 0 ≤ s := by
    obtain ⟨p, hp⟩ := List.exists_mem_of_ne_nil ps hps
    exact dist_nonneg.trans (hs p hp)
  have hδ : 0 < Real.sqrt (d ^ 2 - s ^ 2 / 4) := Real.sqrt_pos.mpr (by nlinarith)
  set δ := Real.sqrt (d ^ 2 - s ^ 2 / 4) with hδe
  obtain ⟨N, hN⟩ := exists_nat_gt (s / δ)
  have hN0 : (0 : ℝ) < N := lt_of_le_of_lt (div_nonneg hs0 hδ.le) hN
  have hsN : s / N < δ := by
    rw [div_lt_iff₀ hδ] at hN
    rw [div_lt_iff₀ hN0]
    linarith [mul_comm (N : ℝ) δ]
  have step : ∀ k : ℕ, k ≤ N → NoCrossing (blend f f' (t * k / N)) g ps qs := by
    intro k
    induction k with
    | zero =>
      intro _
      have : blend f f' (t * (0 : ℕ) / N) = f := by
        funext p
        simp [blend]
      rwa [this]
    | succ k ih =>
      intro hk
      have hk' : (k : ℝ) + 1 ≤ N := by exact_mod_cast hk
      have hkpos : (0 : ℝ) ≤ k := Nat.cast_nonneg k
      have t0 : 0 ≤ t * k / N := by positivity
      have t1 : t * k / N ≤ 1 := by
        rw [div_le_one hN0]
        nlinarith
      have hap := (h.blend hd h' hs t0 t1).apart hps hqs (ih (by omega))
      intro e he e' he' z hz hz'
      obtain ⟨u, u0, u1, rfl⟩ := mem_blend hz
      obtain ⟨e1, e2⟩ := edges_ends he
      set a := (1 - u : ℝ) * f e.1 + (u : ℝ) * f e.2 with ha
      set a' := (1 - u : ℝ) * f' e.1 + (u : ℝ) * f' e.2 with ha'
      have hm : dist a a' ≤ s := dist_mix u0 u1 (hs _ e1) (hs _ e2)
      have hz0 : (1 - t * k / N : ℝ) * a + ((t * k / N : ℝ) : ℂ) * a' ∈ outline (blend f f' (t * k / N)) ps := by
        refine .inr ⟨e, he, ?_⟩
        rw [segment_eq_image]
        refine ⟨u, ⟨u0, u1⟩, ?_⟩
        simp only [blend, ha, ha', Complex.real_smul]
        push_cast
        ring
      have := hap _ hz0 _ (.inr ⟨e', he', hz'⟩)
      have hcalc : dist ((1 - t * k / N : ℝ) * a + ((t * k / N : ℝ) : ℂ) * a')
          ((1 - t * (k + 1 : ℕ) / N : ℝ) * a + ((t * (k + 1 : ℕ) / N : ℝ) : ℂ) * a') =
          t / N * dist a a' := by
        rw [Complex.dist_eq, Complex.dist_eq]
        have : ((1 - t * k / N : ℝ) * a + ((t * k / N : ℝ) : ℂ) * a') -
          ((1 - t * (k + 1 : ℕ) / N : ℝ) * a + ((t * (k + 1 : ℕ) / N : ℝ) : ℂ) * a') =
          ((t / N : ℝ) : ℂ) * (a - a') := by
          push_cast
          ring
        rw [this, norm_mul, Complex.norm_real, Real.norm_of_nonneg (by positivity)]
      rw [hcalc] at this
      have hle : t / N * dist a a' ≤ s / N := by
        rw [div_mul_eq_mul_div]
        gcongr
        nlinarith [dist_nonneg (x := a) (y := a')]
      linarith
  have := step N le_rfl
  rwa [mul_div_cancel_right₀ _ hN0.ne'] at this

end

/-! ### Insides -/

theorem preconnected_chain (f : Translation2 ℝ → ℂ) : ∀ (l : List (Translation2 ℝ)) (a : Translation2 ℝ),
    IsPreconnected {z | z = f a ∨ ∃ e ∈ (a :: l).zip l, z ∈ segment ℝ (f e.1) (f e.2)} := by
  intro l
  induction l with
  | nil => intro a; simp [isPreconnected_singleton]
  | cons b l ih =>
    intro a
    have hu : {z | z = f a ∨ ∃ e ∈ (a :: b :: l).zip (b :: l), z ∈ segment ℝ (f e.1) (f e.2)} =
        segment ℝ (f a) (f b) ∪
          {z | z = f b ∨ ∃ e ∈ (b :: l).zip l, z ∈ segment ℝ (f e.1) (f e.2)} := by
      ext z
      simp only [List.zip_cons_cons, List.mem_cons, Set.mem_ofPred_eq, Set.mem_union]
      constructor
      · rintro (rfl | ⟨e, rfl | he, hz⟩)
        · exact .inl (left_mem_segment ℝ _ _)
        · exact .inl hz
        · exact .inr (.inr ⟨e, he, hz⟩)
      · rintro (hz | rfl | ⟨e, he, hz⟩)
        · exact .inr ⟨_, .inl rfl, hz⟩
        · exact .inr ⟨_, .inl rfl, right_mem_segment ℝ _ _⟩
        · exact .inr ⟨e, .inr he, hz⟩
    rw [hu]
    exact IsPreconnected.union (f b) (right_mem_segment ℝ _ _) (.inl rfl)
      (convex_segment _ _).isPreconnected (ih b)

theorem corner_on_chain (f : Translation2 ℝ → ℂ) : ∀ (l : List (Translation2 ℝ)) (a p : Translation2 ℝ),
    p ∈ a :: l → f p = f a ∨ ∃ e ∈ (a :: l).zip l, f p ∈ segment ℝ (f e.1) (f e.2) := by
  intro l
  induction l with
  | nil => intro a p hp; left; simp at hp; rw [hp]
  | cons b l ih =>
    intro a p hp
    rcases List.mem_cons.mp hp with rfl | hp
    · exact .inl rfl
    · right
      rcases ih b p hp with h | ⟨e, he, h⟩
      · exact ⟨(a, b), by simp, by rw [h]; exact right_mem_segment ℝ _ _⟩
      · exact ⟨e, by rw [List.zip_cons_cons]; exact List.mem_cons_of_mem _ he, h⟩

theorem preconnected_outline (f : Translation2 ℝ → ℂ) (ps : List (Translation2 ℝ)) :
    IsPreconnected (outline f ps) := by
  match ps with
  | [] => simp [outline, edges, isPreconnected_empty]
  | a :: l =>
    have hc := preconnected_chain f l a
    set C := {z | z = f a ∨ ∃ e ∈ (a :: l).zip l, z ∈ segment ℝ (f e.1) (f e.2)} with hC
    have hcorner : ∀ p ∈ a :: l, f p ∈ C := fun p hp => corner_on_chain f l a p hp
    have he := edges_eq (a :: l) (by simp)
    by_cases h3 : 3 ≤ (a :: l).length
    · obtain ⟨x, hx, hE⟩ : ∃ x ∈ a :: l, edges (a :: l) = (a :: l).zip l ++ [(x, a)] := by
        match l with
        | b :: c :: rest => exact ⟨(c :: rest).getLast (by simp), by
            have := List.getLast_mem (l := c :: rest) (by simp)
            simp only [List.mem_cons] at this ⊢
            tauto, rfl⟩
        | [] => simp at h3
        | [b] => simp at h3
      have hu : outline f (a :: l) = C ∪ segment ℝ (f x) (f a) := by
        ext z
        simp only [outline, hE, List.mem_append, List.mem_singleton, Set.mem_ofPred_eq, Set.mem_union]
        constructor
        · rintro (⟨p, hp, rfl⟩ | ⟨e, he | rfl, hz⟩)
          · exact .inl (hcorner p hp)
          · exact .inl (.inr ⟨e, he, hz⟩)
          · exact .inr hz
        · rintro ((rfl | ⟨e, he, hz⟩) | hz)
          · exact .inl ⟨a, by simp, rfl⟩
          · exact .inr ⟨e, .inl he, hz⟩
          · exact .inr ⟨_, .inr rfl, hz⟩
      rw [hu]
      exact IsPreconnected.union (f a) (.inl rfl) (right_mem_segment ℝ _ _) hc
        (convex_segment _ _).isPreconnected
    · have hE : edges (a :: l) = (a :: l).zip l := by
        match l with
        | [] => rfl
        | [b] => rfl
        | b :: c :: rest => simp at h3
      have hu : outline f (a :: l) = C := by
        ext z
        simp only [outline, hE, Set.mem_ofPred_eq, hC]
        constructor
        · rintro (⟨p, hp, rfl⟩ | h)
          · exact hcorner p hp
          · exact .inr h
        · rintro (rfl | h)
          · exact .inl ⟨a, by simp, rfl⟩
          · exact .inr h
      rw [hu]
      exact hc

/-- What is connected and partly in, partly out meets the border. -/
theorem meets_frontier {S R : Set ℂ} (hS : IsPreconnected S) {x y : ℂ} (hx : x ∈ S) (hxR : x ∈ R)
    (hy : y ∈ S) (hyR : y ∉ R) : ∃ w ∈ S, w ∈ frontier R := by
  by_contra hcon
  push Not at hcon
  have hin : ∀ w ∈ S, w ∈ R → w ∈ interior R := by
    intro w hw hwR
    by_contra h
    exact hcon w hw ⟨subset_closure hwR, h⟩
  have hout : ∀ w ∈ S, w ∉ R → w ∈ (closure R)ᶜ := by
    intro w hw hwR h
    exact hcon w hw ⟨h, fun h' => hwR (interior_subset h')⟩
  obtain ⟨z, -, h1, h2⟩ := hS (interior R) (closure R)ᶜ isOpen_interior isClosed_closure.isOpen_compl
    (fun w hw => by
      by_cases h : w ∈ R
      · exact .inl (hin w hw h)
      · exact .inr (hout w hw h))
    ⟨x, hx, hin x hx hxR⟩ ⟨y, hy, hout y hy hyR⟩
  exact h2 (subset_closure (interior_subset h1))

/-- A point that stays `e` away from the border of `R` and moves less than `2 e` stays outside. -/
theorem stays_outside {R : Set ℂ} {x y : ℂ} {e : ℝ} (hx : x ∉ R) (hxy : dist x y < 2 * e)
    (h : ∀ w ∈ frontier R, e ≤ dist x w) (h' : ∀ w ∈ frontier R, e ≤ dist y w) : y ∉ R := by
  intro hy
  obtain ⟨w, hw, hwf⟩ := meets_frontier (convex_segment x y).isPreconnected
    (right_mem_segment ℝ _ _) hy (left_mem_segment ℝ _ _) hx
  have h1 := h w hwf
  have h2 := h' w hwf
  have h3 := dist_add_dist_of_mem_segment hw
  rw [dist_comm w y] at h3
  linarith

end Trajopt
