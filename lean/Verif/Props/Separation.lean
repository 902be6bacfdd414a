import Verif.Lemmas.Segment
import Verif.Props.Obstacle
import Verif.Spec.Clearance

/-!
# C28 Keep-out constraints keep outlines apart (real arithmetic)
-/

set_option autoImplicit false

namespace Trajopt

namespace Props

open Spec

theorem corner_on_edge (a b : Translation2 ℝ) (l : List (Translation2 ℝ)) (p : Translation2 ℝ)
    (hp : p ∈ a :: b :: l) : ∃ e ∈ edges (a :: b :: l), p = e.1 ∨ p = e.2 := by
  have hz : ∀ (l : List (Translation2 ℝ)) (a b : Translation2 ℝ), ∀ p ∈ a :: b :: l,
      ∃ e ∈ (a :: b :: l).zip (b :: l), p = e.1 ∨ p = e.2 := by
    intro l
    induction l with
    | nil =>
      intro a b p hp
      refine ⟨(a, b), by simp, ?_⟩
      simpa using hp
    | cons c l ih =>
      intro a b p hp
      rcases List.mem_cons.mp hp with h | h
      · exact ⟨(a, b), by simp, .inl h⟩
      · obtain ⟨e, he, hpe⟩ := ih b c p h
        exact ⟨e, by rw [List.zip_cons_cons]; exact List.mem_cons_of_mem _ he, hpe⟩
  obtain ⟨e, he, h⟩ := hz l a b p hp
  refine ⟨e, ?_, h⟩
  cases l with
  | nil => simpa [edges] using he
  | cons c l => exact List.mem_append_left _ he

/-- The geometric core. -/
theorem outlines_apart (f g : Translation2 ℝ → ℂ) (ps qs : List (Translation2 ℝ)) (d : ℝ)
    (hps : ps ≠ []) (hqs : qs ≠ []) (hno : NoCrossing f g ps qs)
    (h1 : ∀ e ∈ edges ps, ∀ q ∈ qs, ∀ z ∈ segment ℝ (f e.1) (f e.2), d ≤ dist z (g q))
    (h2 : ∀ e ∈ edges qs, ∀ p ∈ ps, ∀ z ∈ segment ℝ (g e.1) (g e.2), d ≤ dist z (f p))
    (h3 : ∀ q, qs = [q] → ∀ p ∈ ps, d ≤ dist (f p) (g q)) :
    ∀ z ∈ outline f ps, ∀ w ∈ outline g qs, d ≤ dist z w := by
  have hends : ∀ e ∈ edges ps, e.1 ∈ ps ∧ e.2 ∈ ps := by
    intro e he
    rw [edges_eq ps hps] at he
    rcases List.mem_append.mp he with h | h
    · obtain ⟨h1, h2⟩ := List.of_mem_zip (a := e.1) (b := e.2) h
      exact ⟨h1, List.mem_of_mem_tail h2⟩
    · split at h
      · simp only [List.mem_singleton] at h
        subst h
        exact ⟨List.getElem_mem _, List.getElem_mem _⟩
      · simp at h
  have hends' : ∀ e ∈ edges qs, e.1 ∈ qs ∧ e.2 ∈ qs := by
    intro e he
    rw [edges_eq qs hqs] at he
    rcases List.mem_append.mp he with h | h
    · obtain ⟨h1, h2⟩ := List.of_mem_zip (a := e.1) (b := e.2) h
      exact ⟨h1, List.mem_of_mem_tail h2⟩
    · split at h
      · simp only [List.mem_singleton] at h
        subst h
        exact ⟨List.getElem_mem _, List.getElem_mem _⟩
      · simp at h
  rintro z (⟨p, hp, rfl⟩ | ⟨e, he, hz⟩) w (⟨q, hq, rfl⟩ | ⟨e', he', hw⟩)
  · match qs with
    | [] => exact absurd rfl hqs
    | [q'] =>
      simp only [List.mem_singleton] at hq
      subst hq
      exact h3 _ rfl p hp
    | a :: b :: l =>
      obtain ⟨e, he, hpe⟩ := corner_on_edge a b l q hq
      rw [dist_comm]
      refine h2 e he p hp _ ?_
      rcases hpe with rfl | rfl
      · exact left_mem_segment ℝ _ _
      · exact right_mem_segment ℝ _ _
  · rw [dist_comm]
    exact h2 e' he' p hp w hw
  · exact h1 e he q hq z hz
  · exact segment_dist (hno e he e' he') (h1 e he _ (hends' e' he').1) (h1 e he _ (hends' e' he').2)
      (h2 e' he' _ (hends e he).1) (h2 e' he' _ (hends e he).2) hz hw

theorem keepOuts_edge {obs bum : Obstacle ℝ} {e : Translation2 ℝ × Translation2 ℝ}
    {p : Translation2 ℝ} (he : e ∈ edges bum.points) (hp : p ∈ obs.points) :
    .linePoint e.1 e.2 p (bum.safetyDistance + obs.safetyDistance) ∈ keepOuts obs bum := by
  unfold keepOuts
  refine List.mem_append_left _ (List.mem_append_left _ ?_)
  exact List.mem_flatMap.mpr ⟨p, hp, List.mem_map.mpr ⟨e, he, rfl⟩⟩

theorem keepOuts_edge' {obs bum : Obstacle ℝ} {e : Translation2 ℝ × Translation2 ℝ}
    {p : Translation2 ℝ} (he : e ∈ edges obs.points) (hp : p ∈ bum.points) :
    .pointLine p e.1 e.2 (bum.safetyDistance + obs.safetyDistance) ∈ keepOuts obs bum := by
  unfold keepOuts
  refine List.mem_append_left _ (List.mem_append_right _ ?_)
  exact List.mem_flatMap.mpr ⟨p, hp, List.mem_map.mpr ⟨e, he, rfl⟩⟩

theorem keepOuts_point {obs bum : Obstacle ℝ} {p q : Translation2 ℝ} (hq : obs.points = [q])
    (hp : p ∈ bum.points) :
    .pointPoint p q (bum.safetyDistance + obs.safetyDistance) ∈ keepOuts obs bum := by
  unfold keepOuts
  refine List.mem_append_right _ ?_
  rw [hq]
  exact List.mem_map.mpr ⟨p, hp, rfl⟩

/-- C28 for the documented meaning of the constraints, if no edges cross.  Missing: crossing edges,
see `C28_refuted`. -/
theorem C28_partial (st : State) (obs bum : Obstacle ℝ) (hobs : obs.points ≠ [])
    (hbum : bum.points ≠ []) (hno : NoCrossing st.onRobot vec bum.points obs.points)
    (h : ∀ c ∈ keepOuts obs bum, Intended c st) :
    ∀ z ∈ outline st.onRobot bum.points, ∀ w ∈ outline vec obs.points,
      bum.safetyDistance + obs.safetyDistance ≤ dist z w := by
  apply outlines_apart _ _ _ _ _ hbum hobs hno
  · intro e he q hq z hz
    exact h _ (keepOuts_edge he hq) z hz
  · intro e he p hp z hz
    exact h _ (keepOuts_edge' he hp) z hz
  · intro q hq p hp
    exact h _ (keepOuts_point hq hp)

/-- C28 for what the code generates, if no edges cross: the outlines are at least `min d √d` apart,
`d` being the summed safety distance; that is `d` as long as `d ≤ 1`. -/
theorem C28_generated_partial (σ : ℕ → ℝ) (s : SampleVars ℝ) (hs : DefinedSample σ s)
    (obs bum : Obstacle ℝ) (hobs : obs.points ≠ []) (hbum : bum.points ≠ []) (st : State)
    (hst : st = decodeSample σ s) (hno : NoCrossing st.onRobot vec bum.points obs.points)
    (d : ℝ) (hd : d = bum.safetyDistance + obs.safetyDistance) (hd0 : 0 ≤ d)
    (h : ∀ c ∈ keepOuts obs bum, Satisfies σ c s) :
    ∀ z ∈ outline st.onRobot bum.points, ∀ w ∈ outline vec obs.points,
      min d (Real.sqrt d) ≤ dist z w := by
  subst hst
  have hsq : ∀ x : ℝ, 0 ≤ x → d ≤ x ^ 2 → min d (Real.sqrt d) ≤ x := fun x hx hdx =>
    (min_le_right _ _).trans (Real.sqrt_le_iff.mpr ⟨hx, hdx⟩)
  apply outlines_apart _ _ _ _ _ hbum hobs hno
  · intro e he q hq z hz
    have := (constraint_meaning σ _ s hs).mp (h _ (keepOuts_edge he hq))
    simp only [Meaning, ← hd, abs_of_nonneg hd0] at this
    exact hsq _ dist_nonneg (this.2 z hz)
  · intro e he p hp z hz
    have := (constraint_meaning σ _ s hs).mp (h _ (keepOuts_edge' he hp))
    simp only [Meaning, ← hd, abs_of_nonneg hd0] at this
    exact hsq _ dist_nonneg (this.2 z hz)
  · intro q hq p hp
    have := (constraint_meaning σ _ s hs).mp (h _ (keepOuts_point hq hp))
    simp only [Meaning, ← hd, abs_of_nonneg hd0] at this
    exact (min_le_left _ _).trans this

/-- A robot at the origin facing along the x axis, at rest. -/
def restState : State := ⟨0, 1, 0, 0, 0, 0⟩

theorem onRobot_rest (r : Translation2 ℝ) : restState.onRobot r = vec r := by
  simp [restState, State.onRobot]

theorem mem_seg {a b z : ℂ} (h : z ∈ segment ℝ a b) :
    ∃ t : ℝ, 0 ≤ t ∧ t ≤ 1 ∧ z.re = a.re + t * (b.re - a.re) ∧ z.im = a.im + t * (b.im - a.im) := by
  rw [segment_eq_image'] at h
  obtain ⟨t, ⟨h0, h1⟩, rfl⟩ := h
  exact ⟨t, h0, h1, by simp, by simp⟩

theorem le_dist_of_re {d : ℝ} {z w : ℂ} (h : d ≤ |z.re - w.re|) : d ≤ dist z w := by
  rw [dist_eq_norm]
  exact h.trans (by simpa using Complex.abs_re_le_norm (z - w))

theorem le_dist_of_im {d : ℝ} {z w : ℂ} (h : d ≤ |z.im - w.im|) : d ≤ dist z w := by
  rw [dist_eq_norm]
  exact h.trans (by simpa using Complex.abs_im_le_norm (z - w))

/-- C28 is false: two crossing bars (a bumper bar along the x axis, an obstacle bar along the y axis,
both of length 4 through the origin) satisfy all keep-out constraints of distance 1, documented as
well as generated, and yet meet. -/
theorem C28_refuted : ∃ (σ : ℕ → ℝ) (s : SampleVars ℝ) (obs bum : Obstacle ℝ) (z : ℂ),
    DefinedSample σ s ∧ ‖(decodeSample σ s).heading‖ = 1 ∧
    bum.safetyDistance + obs.safetyDistance = 1 ∧
    (∀ c ∈ keepOuts obs bum, Intended c (decodeSample σ s) ∧ Satisfies σ c s) ∧
    z ∈ outline (decodeSample σ s).onRobot bum.points ∧ z ∈ outline vec obs.points := by
  refine ⟨fun _ => 0, constSample restState, ⟨1, [⟨0, -2⟩, ⟨0, 2⟩]⟩, ⟨0, [⟨-2, 0⟩, ⟨2, 0⟩]⟩, 0,
    constSample_defined _ _, by simp [constSample_decode, restState], by simp, ?_, ?_, ?_⟩
  · have hI : ∀ c ∈ keepOuts (⟨1, [⟨0, -2⟩, ⟨0, 2⟩]⟩ : Obstacle ℝ) ⟨0, [⟨-2, 0⟩, ⟨2, 0⟩]⟩,
        Intended c restState := by
      intro c hc
      simp only [keepOuts, edges, List.flatMap_cons, List.flatMap_nil, List.map_cons, List.map_nil,
        List.append_nil, List.cons_append, List.nil_append, List.mem_cons, List.not_mem_nil,
        or_false, zero_add] at hc
      rcases hc with rfl | rfl | rfl | rfl
      all_goals
        intro q hq
        obtain ⟨t, h0, h1, hre, him⟩ := mem_seg hq
        simp only [onRobot_rest, vec] at hre him ⊢
      · apply le_dist_of_im; rw [him]; norm_num
      · apply le_dist_of_im; rw [him]; norm_num
      · apply le_dist_of_re; rw [hre]; norm_num
      · apply le_dist_of_re; rw [hre]; norm_num
    intro c hc
    refine ⟨hI c hc, ?_⟩
    have hp : ∀ (a b p : Translation2 ℝ), vec a ≠ vec b →
        (Intended (.linePoint a b p 1) restState →
          Satisfies (fun _ => 0) (.linePoint a b p 1) (constSample restState)) ∧
        (Intended (.pointLine p a b 1) restState →
          Satisfies (fun _ => 0) (.pointLine p a b 1) (constSample restState)) := by
      intro a b p hab
      have := (C24_partial (fun _ => 0) (constSample restState) (constSample_defined _ _) a b p 1
        (by norm_num) restState rfl).2.2.2 (le_refl _)
      exact ⟨this.1 (by rwa [onRobot_rest, onRobot_rest]), this.2 hab⟩
    have hx : vec (⟨-2, 0⟩ : Translation2 ℝ) ≠ vec ⟨2, 0⟩ := by
      intro h; have := congrArg Complex.re h; norm_num [vec] at this
    have hy : vec (⟨0, -2⟩ : Translation2 ℝ) ≠ vec ⟨0, 2⟩ := by
      intro h; have := congrArg Complex.im h; norm_num [vec] at this
    have hI' := hI c hc
    simp only [keepOuts, edges, List.flatMap_cons, List.flatMap_nil, List.map_cons, List.map_nil,
      List.append_nil, List.cons_append, List.nil_append, List.mem_cons, List.not_mem_nil,
      or_false, zero_add] at hc
    rcases hc with rfl | rfl | rfl | rfl
    · exact (hp _ _ _ hx).1 hI'
    · exact (hp _ _ _ hx).1 hI'
    · exact (hp _ _ _ hy).2 hI'
    · exact (hp _ _ _ hy).2 hI'
  · right
    refine ⟨(⟨-2, 0⟩, ⟨2, 0⟩), by simp [edges], ?_⟩
    rw [constSample_decode, onRobot_rest, onRobot_rest, segment_eq_image']
    exact ⟨1 / 2, by norm_num, by apply Complex.ext <;> simp [vec]; norm_num⟩
  · right
    refine ⟨(⟨0, -2⟩, ⟨0, 2⟩), by simp [edges], ?_⟩
    rw [segment_eq_image']
    exact ⟨1 / 2, by norm_num, by apply Complex.ext <;> simp [vec]; norm_num⟩

/-- The hypotheses of `C28_partial` are met: two parallel bars at distance 1. -/
example : ∃ (st : State) (obs bum : Obstacle ℝ), obs.points ≠ [] ∧ bum.points ≠ [] ∧
    NoCrossing st.onRobot vec bum.points obs.points ∧ (∀ c ∈ keepOuts obs bum, Intended c st) ∧
    0 < bum.safetyDistance + obs.safetyDistance := by
  refine ⟨restState, ⟨1, [⟨0, 1⟩, ⟨3, 1⟩]⟩, ⟨0, [⟨0, 0⟩, ⟨3, 0⟩]⟩, by simp, by simp, ?_, ?_, by simp⟩
  · intro e he e' he' z hz hz'
    simp only [edges, List.mem_singleton] at he he'
    subst he he'
    obtain ⟨t, -, -, -, h⟩ := mem_seg hz
    obtain ⟨t', -, -, -, h'⟩ := mem_seg hz'
    simp only [onRobot_rest, vec] at h h'
    rw [h] at h'
    norm_num at h'
  · intro c hc
    simp only [keepOuts, edges, List.flatMap_cons, List.flatMap_nil, List.map_cons, List.map_nil,
      List.append_nil, List.cons_append, List.nil_append, List.mem_cons, List.not_mem_nil,
      or_false, zero_add] at hc
    rcases hc with rfl | rfl | rfl | rfl
    all_goals
      intro q hq
      obtain ⟨t, h0, h1, hre, him⟩ := mem_seg hq
      simp only [onRobot_rest, vec] at hre him ⊢
      apply le_dist_of_im; rw [him]; norm_num

end Props

end Trajopt
