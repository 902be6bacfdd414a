import Verif.Props.Runtime

/-!
# C86 Callbacks that throw

An exception thrown by a user's callback ends the `Generate` call it belongs to and that round of
callbacks, and nothing else.
-/

set_option autoImplicit false

namespace Trajopt.Props

open Spec Builder

variable {D : Type}

/-- C86: `Generate` is left by an exception exactly if one of its callbacks throws. -/
theorem C86_exception (msg : Exit → String) (w : World D) (g : ℕ) (e : Event D)
    (hrun : (w.threads g).phase ≠ .threw) :
    ((w.step msg e).threads g).phase = .threw ↔
      e = .throw g ∧ ∃ soln c rest, (w.threads g).phase = .calling soln (c :: rest) := by
  constructor
  · intro h
    have hs := step_spec msg w e
    generalize w.step msg e = w' at h hs
    cases hs
    case stutter => exact absurd h hrun
    case tick => exact absurd h hrun
    case cancel => exact absurd h hrun
    case throw k soln c rest hp =>
      by_cases hg : g = k
      · subst hg; exact ⟨rfl, soln, c, rest, hp⟩
      · simp only [set_other _ _ hg] at h; exact absurd h hrun
    all_goals
      simp only [set_threads] at h
      split at h
      · cases h
      · exact absurd h hrun
  · rintro ⟨rfl, soln, c, rest, hp⟩
    simp [World.step, hp]

/-- C86: a callback that throws has been called; apart from that, and from the end of the
`Generate` call it belongs to, nothing changes: not the generator, no other thread, not the
cancellation flag, not the time of the last round. -/
theorem C86_only (msg : Exit → String) (w : World D) (g : ℕ) (soln : SwerveSolution D) (c : ℕ)
    (rest : List ℕ) (hp : (w.threads g).phase = .calling soln (c :: rest)) (w' : World D)
    (hw : w' = w.step msg (.throw g)) :
    w'.threads g = ⟨(w.threads g).generator, .threw⟩ ∧ (∀ h, h ≠ g → w'.threads h = w.threads h) ∧
    w'.flag = w.flag ∧ w'.lastFrame = w.lastFrame ∧ w'.clock = w.clock ∧ w'.rounds = w.rounds ∧
    w'.calls = w.calls ++ [⟨g, c, soln, (w.threads g).generator.handle⟩] := by
  subst hw
  simp only [World.step, hp, set_same, set_flag, set_last, set_clock, set_rounds, true_and, and_true]
  exact fun h hne => set_other _ _ hne

/-- C86: after an exception `Generate` can be called again, with the same consequences as if it
had not been called before. -/
theorem C86_again (msg : Exit → String) (w : World D) (g : ℕ) (es : List (Event D))
    (hp : (w.threads g).phase = .threw) :
    w.run msg (.start g :: es) =
      (w.set g { w.threads g with phase := .idle }).run msg (.start g :: es) := by
  rw [run_cons, run_cons]
  congr 1
  simp only [World.step, hp, set_same]
  simp only [World.set, World.mk.injEq, true_and, and_true]
  funext h
  by_cases hg : h = g <;> simp [hg]

/-- Is the event an exception in generator `g`? -/
def isThrow (g : ℕ) : Event D → Bool
  | .throw h => h == g
  | _ => false

/-- C86: every round of callbacks calls those registered on the builder in that order, all of them
except in at most as many rounds as callbacks have thrown, which end early.  `made` is how many were
called in each round that is over, `now` those called so far in the one that is not. -/
theorem C86_calls (msg : Exit → String) (gens : ℕ → Generator D) (es : List (Event D)) (g : ℕ)
    (w : World D) (hw : w = (World.new gens).run msg es) :
    ∃ made : List ℕ, ∃ now : List ℕ,
      (callsBy w g).map (·.callback) =
        made.flatMap (fun n => (gens g).path.callbacks.take n) ++ now ∧
      (∀ n ∈ made, n ≤ (gens g).path.callbacks.length) ∧
      made.countP (fun n => decide (n < (gens g).path.callbacks.length)) ≤
        es.countP (isThrow g) ∧
      ((∀ soln rest, (w.threads g).phase ≠ .calling soln rest) →
        now = [] ∧ made.length = (roundsBy w g).length) ∧
      (∀ soln rest, (w.threads g).phase = .calling soln rest →
        now ++ rest = (gens g).path.callbacks ∧ made.length + 1 = (roundsBy w g).length) := by
  subst hw
  suffices h : ∀ P, P = (fun (es : List (Event D)) (w : World D) =>
      (w.threads g).generator.path = (gens g).path ∧
      ∃ made : List ℕ, ∃ now : List ℕ,
      (callsBy w g).map (·.callback) =
        made.flatMap (fun n => (gens g).path.callbacks.take n) ++ now ∧
      (∀ n ∈ made, n ≤ (gens g).path.callbacks.length) ∧
      made.countP (fun n => decide (n < (gens g).path.callbacks.length)) ≤
        es.countP (isThrow g) ∧
      ((∀ soln rest, (w.threads g).phase ≠ .calling soln rest) →
        now = [] ∧ made.length = (roundsBy w g).length) ∧
      (∀ soln rest, (w.threads g).phase = .calling soln rest →
        now ++ rest = (gens g).path.callbacks ∧ made.length + 1 = (roundsBy w g).length)) →
      P es ((World.new gens).run msg es) from (h _ rfl).2
  intro P hP
  refine run_invariant (P := P) ?_ ?_ <;> subst hP
  · exact ⟨rfl, [], [], by simp [World.new, callsBy, roundsBy]⟩
  intro pre e w w' he ⟨hpath, made, now, hcalls, hle, hcnt, hout, hin⟩ hs
  have hcnt' : made.countP (fun n => decide (n < (gens g).path.callbacks.length)) ≤
      (pre ++ [e]).countP (isThrow g) := by rw [List.countP_append]; omega
  -- steps that neither call anything nor begin or end a round
  have key : ∀ h (t : Thread D), (h = g → t.generator.path = (gens g).path ∧
      (∀ soln rest, t.phase ≠ .calling soln rest) ∧
      ∀ soln rest, (w.threads g).phase ≠ .calling soln rest) → ∀ w' : World D,
      w'.threads = (w.set h t).threads → callsBy w' g = callsBy w g →
      roundsBy w' g = roundsBy w g →
      (w'.threads g).generator.path = (gens g).path ∧ ∃ made : List ℕ, ∃ now : List ℕ,
      (callsBy w' g).map (·.callback) =
        made.flatMap (fun n => (gens g).path.callbacks.take n) ++ now ∧
      (∀ n ∈ made, n ≤ (gens g).path.callbacks.length) ∧
      made.countP (fun n => decide (n < (gens g).path.callbacks.length)) ≤
        (pre ++ [e]).countP (isThrow g) ∧
      ((∀ soln rest, (w'.threads g).phase ≠ .calling soln rest) →
        now = [] ∧ made.length = (roundsBy w' g).length) ∧
      (∀ soln rest, (w'.threads g).phase = .calling soln rest →
        now ++ rest = (gens g).path.callbacks ∧ made.length + 1 = (roundsBy w' g).length) := by
    intro h t ht w' h1 h2 h3
    rw [h1, h2, h3, set_threads]
    by_cases hg : g = h
    · obtain ⟨a, b, c⟩ := ht hg.symm
      rw [if_pos hg]
      exact ⟨a, made, now, hcalls, hle, hcnt', fun _ => hout c, fun s r e => absurd e (b s r)⟩
    · rw [if_neg hg]
      exact ⟨hpath, made, now, hcalls, hle, hcnt', hout, hin⟩
  cases hs
  case stutter => exact ⟨hpath, made, now, hcalls, hle, hcnt', hout, hin⟩
  case tick => exact ⟨hpath, made, now, hcalls, hle, hcnt', hout, hin⟩
  case cancel => exact ⟨hpath, made, now, hcalls, hle, hcnt', hout, hin⟩
  case start h hp =>
    refine key h _ ?_ _ rfl rfl rfl
    rintro rfl
    refine ⟨hpath, by simp, ?_⟩
    rcases hp with hp | ⟨r, hp⟩ | hp <;> rw [hp] <;> simp
  case stamp h now' soln hp hs =>
    by_cases hg : g = h
    · subst hg
      obtain ⟨rfl, hlen⟩ := hout (by rw [hp]; simp)
      refine ⟨by simpa only [set_same] using hpath, made, [], hcalls, hle, hcnt', ?_, ?_⟩
      · simp only [set_same]
        intro h; exact absurd rfl (h _ _)
      · simp only [set_same]
        intro s r e
        injection e with e1 e2
        subst e2
        exact ⟨by rw [hpath]; rfl, by simp [roundsBy] at hlen ⊢; exact hlen⟩
    · have hg' : ¬ h = g := fun h => hg h.symm
      exact key h _ (fun h => absurd h hg') _ rfl rfl (by simp [roundsBy, hg'])
  case call h edit soln c rest hp =>
    by_cases hg : g = h
    · subst hg
      obtain ⟨hnow, hlen⟩ := hin _ _ hp
      refine ⟨by simpa only [set_same] using hpath, made, now ++ [c], ?_, hle, hcnt', ?_, ?_⟩
      · simp only [callsBy, List.filter_append, List.map_append] at hcalls ⊢
        rw [hcalls]; simp
      · simp only [set_same]
        intro h; exact absurd rfl (h _ _)
      · simp only [set_same]
        intro s r e
        injection e with e1 e2
        subst e2
        exact ⟨by simpa using hnow, hlen⟩
    · have hg' : ¬ h = g := fun h => hg h.symm
      exact key h _ (fun h => absurd h hg') _ rfl (by simp [callsBy, hg']) rfl
  case called h edit soln hp =>
    by_cases hg : g = h
    · subst hg
      obtain ⟨hnow, hlen⟩ := hin _ _ hp
      rw [List.append_nil] at hnow
      subst hnow
      refine ⟨by simpa only [set_same] using hpath, made ++ [(gens g).path.callbacks.length], [],
        ?_, ?_, ?_, ?_, ?_⟩
      · rw [show callsBy (w.set g { w.threads g with phase := .polling }) g = callsBy w g from rfl,
          hcalls]
        simp
      · intro n hn
        rcases List.mem_append.mp hn with hn | hn
        · exact hle n hn
        · exact (List.mem_singleton.mp hn).le
      · rw [List.countP_append]; simpa using hcnt'
      · intro _; exact ⟨rfl, by simpa [roundsBy] using hlen⟩
      · simp
    · have hg' : ¬ h = g := fun h => hg h.symm
      exact key h _ (fun h => absurd h hg') _ rfl rfl rfl
  case throw h soln c rest hp =>
    by_cases hg : g = h
    · subst hg
      obtain ⟨hnow, hlen⟩ := hin _ _ hp
      refine ⟨by simpa only [set_same] using hpath, made ++ [now.length + 1], [],
        ?_, ?_, ?_, ?_, ?_⟩
      · simp only [callsBy, List.filter_append, List.map_append] at hcalls ⊢
        rw [hcalls, ← hnow]
        simp [List.take_append]
      · have : now.length + 1 ≤ (gens g).path.callbacks.length := by rw [← hnow]; simp
        intro n hn
        rcases List.mem_append.mp hn with hn | hn
        · exact hle n hn
        · rw [List.mem_singleton.mp hn]; exact this
      · rw [List.countP_append, List.countP_append]
        have : ([Event.throw g] : List (Event D)).countP (isThrow g) = 1 := by simp [isThrow]
        rw [this]
        have := List.countP_le_length (p := fun n => decide (n < (gens g).path.callbacks.length))
          (l := [now.length + 1])
        rw [List.length_singleton] at this
        omega
      · intro _; exact ⟨rfl, by simpa [roundsBy] using hlen⟩
      · simp
    · have hg' : ¬ h = g := fun h => hg h.symm
      exact key h _ (fun h => absurd h hg') _ rfl (by simp [callsBy, hg']) rfl
  all_goals
    refine key _ _ ?_ _ rfl rfl rfl
    rintro rfl
    exact ⟨hpath, by simp, by simp_all⟩

/-- In the process of `demo_process`, callback 7 throws in the first round: callback 8 is not
called, `Generate` is left; it is called again and returns the solver's values. -/
example : ∃ (gens : ℕ → Generator ℝ) (w : World ℝ) (s s' : SwerveSolution ℝ),
    w = (World.new gens).run (fun _ => "stop") [.start 0, .iterate 0 0, .tick (10 ^ 9), .readClock 0,
      .checkRate 0, .stamp 0, .throw 0] ∧
    (w.threads 0).phase = .threw ∧ w.calls = [⟨0, 7, s, 0⟩] ∧
    ((w.run (fun _ => "stop") [.start 0, .finish 0 0 1]).threads 0).phase = .returned (.ok s') ∧
    ((gens 0).withValues 1).constructSwerveSolution = .ok s' := by
  obtain ⟨gens, hg⟩ := demo_process
  obtain ⟨hs, hc, hh⟩ := hg 0
  obtain ⟨s', hs'⟩ := hs 1
  obtain ⟨s, hs⟩ := hs 0
  have hc' : ((gens 0).withValues 0).path.callbacks = [7, 8] := hc
  have hh' : ((gens 0).withValues 0).handle = 0 := hh
  have hv : ((gens 0).withValues 0).withValues 1 = (gens 0).withValues 1 := rfl
  refine ⟨gens, _, s, s', rfl, ?_⟩
  simp [World.run, World.step, World.set, World.new, tooSoon, hs, hc', hh', hv,
    Generator.conclude, Exit.toInt, hs']

end Trajopt.Props
