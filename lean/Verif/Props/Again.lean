import Verif.Props.Refuse
import Verif.Spec.Again

/-!
# C126 `Generate` called again
-/

set_option autoImplicit false

namespace Trajopt.Props

open Spec

variable {D : Type}

/-- Only the solver's writes change a generator. -/
theorem step_generator (msg : Exit → String) (w : World D) (g : ℕ) (e : Event D) (h : ∀ v, ¬ Sets w g e v) :
    ((w.step msg e).threads g).generator = (w.threads g).generator := by
  have key : ∀ k t, t.generator = (w.threads k).generator →
      ((w.set k t).threads g).generator = (w.threads g).generator := by
    intro k t ht
    by_cases hk : g = k
    · subst hk; rw [set_same, ht]
    · rw [set_other _ _ hk]
  have other : ∀ k t, g ≠ k → ((w.set k t).threads g).generator = (w.threads g).generator :=
    fun k t hk => by rw [set_other _ _ hk]
  have hs := step_spec msg w e
  generalize w.step msg e = w' at hs
  cases hs
  case iterate k v hp => exact other _ _ (by rintro rfl; exact h v ⟨hp, .inl rfl⟩)
  case finish k c v r hp hr => exact other _ _ (by rintro rfl; exact h v ⟨hp, .inr ⟨c, rfl⟩⟩)
  case finishCrash k c v r hp hr => exact other _ _ (by rintro rfl; exact h v ⟨hp, .inr ⟨c, rfl⟩⟩)
  all_goals first
    | rfl
    | exact key _ _ rfl

theorem step_sets (msg : Exit → String) (w : World D) (g : ℕ) (e : Event D) (v : ℕ → D) (h : Sets w g e v) :
    ((w.step msg e).threads g).generator = (w.threads g).generator.withValues v := by
  obtain ⟨hp, rfl | ⟨c, rfl⟩⟩ := h
  · simp [World.step, hp, World.set]
  · simp only [World.step, hp]
    split <;> simp

theorem run_quiet (msg : Exit → String) (g : ℕ) : ∀ (es : List (Event D)) (w : World D), Unset msg w g es →
    ((w.run msg es).threads g).generator = (w.threads g).generator
  | [], _, _ => rfl
  | e :: es, w, h => by
    rw [run_cons, run_quiet msg g es _ fun pre e' post he v => by
      have := h (e :: pre) e' post (by rw [he]; rfl) v
      rwa [run_cons] at this]
    exact step_generator msg w g e (h [] e es rfl)

/-- C126: whatever happens in a process, generations finished, cancelled or ended by exceptions included, the problem of each
generator remains what it was when the generator was made. -/
theorem C126_problem (msg : Exit → String) (w : World D) (es : List (Event D)) (g : ℕ) :
    SameProblem (w.threads g).generator ((w.run msg es).threads g).generator := by
  refine run_invariant (P := fun _ w' => SameProblem (w.threads g).generator (w'.threads g).generator)
    ⟨rfl, rfl, rfl, rfl, rfl, rfl, rfl⟩ ?_
  intro pre e w' w'' he hf hs
  have key : ∀ k t, SameProblem (w'.threads k).generator t.generator →
      SameProblem (w.threads g).generator ((w'.set k t).threads g).generator := by
    intro k t ht
    by_cases hk : g = k
    · subst hk
      rw [set_same]
      exact ⟨ht.1.trans hf.1, ht.2.trans hf.2, ht.3.trans hf.3, ht.4.trans hf.4, ht.5.trans hf.5, ht.6.trans hf.6,
        ht.7.trans hf.7⟩
    · rwa [set_other _ _ hk]
  cases hs
  case stutter => exact hf
  case tick => exact hf
  case cancel => exact hf
  all_goals exact key _ _ ⟨rfl, rfl, rfl, rfl, rfl, rfl, rfl⟩

theorem SameProblem.trans {g g' g'' : Generator D} (h : SameProblem g g') (h' : SameProblem g' g'') : SameProblem g g'' :=
  ⟨h'.1.trans h.1, h'.2.trans h.2, h'.3.trans h.3, h'.4.trans h.4, h'.5.trans h.5, h'.6.trans h.6, h'.7.trans h.7⟩

/-- C126: also where generations run out of memory. -/
theorem C126_memory (msg : Exit → String) (g : ℕ) : ∀ (rs : List (MemEvent D)) (w : World D),
    SameProblem (w.threads g).generator ((w.memRun msg rs).threads g).generator
  | [], _ => ⟨rfl, rfl, rfl, rfl, rfl, rfl, rfl⟩
  | r :: rs, w => by
    refine SameProblem.trans ?_ (C126_memory msg g rs (w.memStep msg r))
    cases r with
    | plain e => exact C126_problem msg w [e] g
    | refuse k v =>
      by_cases hw : w.refuse k v = w
      · change SameProblem _ ((w.refuse k v).threads g).generator
        rw [hw]
        exact ⟨rfl, rfl, rfl, rfl, rfl, rfl, rfl⟩
      · obtain ⟨-, ⟨u, hu⟩, ho, -⟩ := C123_only w k v _ rfl hw
        change SameProblem _ ((w.refuse k v).threads g).generator
        by_cases hk : g = k
        · subst hk
          rw [hu]
          exact ⟨rfl, rfl, rfl, rfl, rfl, rfl, rfl⟩
        · rw [ho g hk]
          exact ⟨rfl, rfl, rfl, rfl, rfl, rfl, rfl⟩

/-- C126: a generator's decision variables have the values that its solver gave them last, in whichever generation, and before
that those of the initial guess. -/
theorem C126_values (msg : Exit → String) (gens : ℕ → Generator D) (g : ℕ) :
    (∀ es, Unset msg (World.new gens) g es →
      (((World.new gens).run msg es).threads g).generator.problem.values = (gens g).problem.values) ∧
    ∀ es e es' v, Sets ((World.new gens).run msg es) g e v →
      Unset msg ((World.new gens).run msg (es ++ [e])) g es' →
      (((World.new gens).run msg (es ++ e :: es')).threads g).generator.problem.values = v := by
  refine ⟨fun es h => by rw [run_quiet msg g es _ h]; rfl, fun es e es' v h hq => ?_⟩
  rw [show es ++ e :: es' = (es ++ [e]) ++ es' by simp, run_append, run_quiet msg g es' _ hq, run_append]
  change ((World.step msg _ e).threads g).generator.problem.values = v
  rw [step_sets msg _ g e v h]
  rfl

/-- C126: a call of `Generate` starts from the values that it finds. -/
theorem C126_start (msg : Exit → String) (w : World D) (g : ℕ)
    (hp : (w.threads g).phase = .idle ∨ (∃ r, (w.threads g).phase = .returned r) ∨ (w.threads g).phase = .threw) :
    ((w.step msg (.start g)).threads g).phase = .solving ∧
    ((w.step msg (.start g)).threads g).generator = (w.threads g).generator := by
  rcases hp with hp | ⟨r, hp⟩ | hp <;> simp [World.step, hp, World.set]

theorem generated_thread (msg : Exit → String) (solver : (ℕ → D) → ℤ × (ℕ → D)) (w : World D) (g : ℕ)
    (hs : Sound (w.threads g).generator)
    (hp : (w.threads g).phase = .idle ∨ (∃ r, (w.threads g).phase = .returned r) ∨ (w.threads g).phase = .threw) :
    ∃ r, Concluded msg (w.threads g).generator (solver (w.threads g).generator.problem.values).1
        (solver (w.threads g).generator.problem.values).2 r ∧
      (generated msg solver w g).threads g =
        ⟨(w.threads g).generator.withValues (solver (w.threads g).generator.problem.values).2, .returned r⟩ := by
  obtain ⟨h1, h2⟩ := C126_start msg w g hp
  set v := (w.threads g).generator.problem.values
  have : ∃ r, Concluded msg (w.threads g).generator (solver v).1 (solver v).2 r := by
    by_cases hc : (solver v).1 < 0
    · exact ⟨_, .inl ⟨hc, rfl⟩⟩
    · obtain ⟨sol, hsol⟩ := hs (solver v).2
      exact ⟨_, .inr ⟨by omega, sol, hsol, rfl⟩⟩
  obtain ⟨r, hr⟩ := this
  refine ⟨r, hr, ?_⟩
  rw [← conclude_other] at hr
  rw [generated, run_cons, run_cons]
  change (World.step msg (w.step msg (.start g)) (.finish g (solver v).1 (solver v).2)).threads g = _
  generalize w.step msg (.start g) = w' at h1 h2
  simp only [World.step, h1, h2, hr, set_same]

/-- C126 fails: whatever the generator, with some solver a first call of `Generate` reports an error, and so it does on every
new generator, but the next call succeeds. -/
theorem C126_refuted (msg : Exit → String) (gens : ℕ → Generator ℝ) (g : ℕ) (hs : Sound (gens g)) :
    ∃ solver : (ℕ → ℝ) → ℤ × (ℕ → ℝ), ∃ m sol,
      let w := generated msg solver (World.new gens) g
      (w.threads g).phase = .returned (.error m) ∧
      ((generated msg solver w g).threads g).phase = .returned (.ok sol) := by
  classical
  let v := (gens g).problem.values
  refine ⟨fun u => if u = v then (-1, fun i => v i + 1) else (0, u), ?_⟩
  set solver : (ℕ → ℝ) → ℤ × (ℕ → ℝ) := fun u => if u = v then (-1, fun i => v i + 1) else (0, u) with hsol
  obtain ⟨r, hr, h1⟩ := generated_thread msg solver (World.new gens) g hs (.inl rfl)
  have e1 : solver ((World.new gens).threads g).generator.problem.values = (-1, fun i => v i + 1) := if_pos rfl
  rw [e1] at hr h1
  have hne : (fun i => v i + 1) ≠ v := fun h => by
    have := congrFun h 0
    simp at this
  obtain ⟨r', hr', h2⟩ := generated_thread msg solver (generated msg solver (World.new gens) g) g
    (by rw [h1]; exact hs.withValues _) (by rw [h1]; exact .inr (.inl ⟨r, rfl⟩))
  have e2 : solver ((generated msg solver (World.new gens) g).threads g).generator.problem.values =
      (0, fun i => v i + 1) := by
    rw [h1]
    exact if_neg hne
  rw [e2] at hr' h2
  rcases hr with ⟨-, rfl⟩ | ⟨hc, -⟩
  · rcases hr' with ⟨hc, -⟩ | ⟨-, sol, -, rfl⟩
    · exact absurd hc (by norm_num)
    · exact ⟨_, sol, by rw [h1], by rw [h2]⟩
  · exact absurd hc (by norm_num)

/-- C126 for solvers that stay where they ended: a call of `Generate` gives the result of the last one again, whatever other
generators did in between. -/
theorem C126_again_partial (msg : Exit → String) (solver : (ℕ → D) → ℤ × (ℕ → D)) (w : World D) (g : ℕ)
    (hs : Sound (w.threads g).generator)
    (hp : (w.threads g).phase = .idle ∨ (∃ r, (w.threads g).phase = .returned r) ∨ (w.threads g).phase = .threw)
    (hsolver : let v := (w.threads g).generator.problem.values; solver (solver v).2 = solver v)
    (es : List (Event D)) (hes : ∀ e ∈ es, actor e ≠ some g) :
    (generated msg solver ((generated msg solver w g).run msg es) g).threads g = (generated msg solver w g).threads g := by
  obtain ⟨r, hr, h1⟩ := generated_thread msg solver w g hs hp
  have h0 := C47_separate msg (generated msg solver w g) g es hes
  rw [h1] at h0
  obtain ⟨r', hr', h2⟩ := generated_thread msg solver ((generated msg solver w g).run msg es) g
    (by rw [h0]; exact hs.withValues _) (by rw [h0]; exact .inr (.inl ⟨r, rfl⟩))
  rw [h0] at hr' h2
  change solver (solver _).2 = solver _ at hsolver
  have e : ((w.threads g).generator.withValues (solver (w.threads g).generator.problem.values).2).problem.values =
    (solver (w.threads g).generator.problem.values).2 := rfl
  rw [e, hsolver] at hr' h2
  rw [h1, h2]
  rw [← conclude_other] at hr hr'
  have : r' = r := by
    have := hr'.symm.trans hr
    cases this
    rfl
  rw [this]
  rfl

/-- There are generators to which all this applies, and solvers that stay where they ended. -/
example : ∃ gens : ℕ → Generator ℝ, Sound (gens 0) ∧ Unset (fun _ => "stop") (World.new gens) 0 [.start 0, .tick 1] ∧
    Sets ((World.new gens).run (fun _ => "stop") [.start 0]) 0 (.iterate 0 0) 0 ∧
    let solver : (ℕ → ℝ) → ℤ × (ℕ → ℝ) := fun _ => (0, 0)
    let w := generated (fun _ => "stop") solver (World.new gens) 0
    (generated (fun _ => "stop") solver (w.run (fun _ => "stop") [.cancel, .start 1]) 0).threads 0 = w.threads 0 := by
  obtain ⟨gens, hg⟩ := demo_process
  refine ⟨gens, (hg 0).1, ?_, ⟨by simp [World.run, World.step, World.new, World.set], .inl rfl⟩, ?_⟩
  · intro pre e post he v hv
    have : e ∈ ([.start 0, .tick 1] : List (Event ℝ)) := by rw [he]; simp
    obtain ⟨-, rfl | ⟨c, rfl⟩⟩ := hv <;> simp at this
  · exact C126_again_partial _ _ _ 0 (hg 0).1 (.inl rfl) rfl _ (by simp [actor])

end Trajopt.Props
