import Verif.Lemmas.Runtime
import Verif.Props.Generator

/-!
# C47–C50 `Generate`, cancellation and progress callbacks

Schedules (`List Event`) are arbitrary interleavings of any number of generators' threads.
-/

set_option autoImplicit false

namespace Trajopt.Props

open Spec Builder

variable {D : Type}

/-! ### C47 -/

/-- What `Generate` returns for the solver's own exit code. -/
def Concluded (msg : Exit → String) (g : Generator D) (code : ℤ) (values : ℕ → D)
    (r : GenResult D) : Prop :=
  (code < 0 ∧ r = .error (msg (.other code))) ∨
  (0 ≤ code ∧ ∃ sol, (g.withValues values).constructSwerveSolution = .ok sol ∧ r = .ok sol)

theorem conclude_other (msg : Exit → String) (g : Generator D) (code : ℤ) (r : GenResult D)
    (values : ℕ → D) :
    (g.withValues values).conclude msg (.other code) = .ok r ↔ Concluded msg g code values r := by
  simp only [Generator.conclude, Exit.toInt, Concluded, reduceCtorEq, or_false]
  by_cases h : code < 0
  · rw [if_pos h]
    constructor
    · intro e; exact .inl ⟨h, (Except.ok.inj e).symm⟩
    · rintro (⟨-, rfl⟩ | ⟨h', -⟩)
      · rfl
      · omega
  · rw [if_neg h]
    cases hc : (g.withValues values).constructSwerveSolution with
    | ok sol =>
      constructor
      · intro e; exact .inr ⟨by omega, sol, rfl, (Except.ok.inj e).symm⟩
      · rintro (⟨h', -⟩ | ⟨-, sol', e, rfl⟩)
        · omega
        · cases e; rfl
    | error f => simp [h]

/-- C47: a running `Generate` returns exactly if its solver ends, with an error if the exit code is
negative and otherwise with the solution made of the final values, or if the callback requests a
stop, with an error. -/
theorem C47_result (msg : Exit → String) (w : World D) (g : ℕ) (e : Event D) (r : GenResult D)
    (hrun : ∀ r', (w.threads g).phase ≠ .returned r') :
    ((w.step msg e).threads g).phase = .returned r ↔
      (e = .poll g ∧ (w.threads g).phase = .polling ∧ w.flag ≠ 0 ∧
        r = .error (msg .callbackRequestedStop)) ∨
      (∃ code values, e = .finish g code values ∧ (w.threads g).phase = .solving ∧
        Concluded msg (w.threads g).generator code values r) := by
  cases e with
  | tick ns => simpa [World.step] using hrun r
  | cancel => simpa [World.step] using hrun r
  | start h =>
    simp only [World.step, reduceCtorEq, false_and, exists_false, or_self, iff_false]
    split <;> (try simp only [set_threads]) <;> (try split) <;> simp [hrun]
  | iterate h values =>
    simp only [World.step, reduceCtorEq, false_and, exists_false, or_self, iff_false]
    split <;> (try simp only [set_threads]) <;> (try split) <;> simp [hrun]
  | readClock h =>
    simp only [World.step, reduceCtorEq, false_and, exists_false, or_self, iff_false]
    split <;> (try simp only [set_threads]) <;> (try split) <;> simp [hrun]
  | checkRate h =>
    simp only [World.step, reduceCtorEq, false_and, exists_false, or_self, iff_false]
    split <;> (try simp only [set_threads]) <;> (try split) <;> (try split) <;> simp [hrun]
  | stamp h =>
    simp only [World.step, reduceCtorEq, false_and, exists_false, or_self, iff_false]
    split <;> (try split) <;> (try simp only [set_threads]) <;> (try split) <;> simp [hrun]
  | call h edit =>
    simp only [World.step, reduceCtorEq, false_and, exists_false, or_self, iff_false]
    split <;> (try simp only [set_threads]) <;> (try split) <;> simp [hrun]
  | throw h =>
    simp only [World.step, reduceCtorEq, false_and, exists_false, or_self, iff_false]
    split <;> (try simp only [set_threads]) <;> (try split) <;> simp [hrun]
  | poll h =>
    simp only [World.step, reduceCtorEq, false_and, exists_false, or_false, conclude_stop,
      Event.poll.injEq]
    by_cases hg : h = g
    · subst hg
      cases hp : (w.threads h).phase <;> simp [hp] <;> try exact absurd hp (hrun _)
      split <;> simp_all [eq_comm]
    · split
      · split <;> simp [set_threads, Ne.symm hg, hg, hrun]
      · simp [hg, hrun]
  | finish h code values =>
    simp only [World.step, reduceCtorEq, false_and, false_or]
    by_cases hg : h = g
    · subst hg
      cases hp : (w.threads h).phase <;>
        simp only [hp, reduceCtorEq, false_and, and_false, exists_false, iff_false] <;> try exact fun e => hrun _ (hp.trans e)
      have key := conclude_other msg (w.threads h).generator code r values
      constructor
      · intro e
        refine ⟨code, values, rfl, trivial, key.mp ?_⟩
        revert e
        split
        · rename_i r' hr
          intro e
          simp only [set_same, Phase.returned.injEq] at e
          rw [hr, e]
        · intro e; simp at e
      · rintro ⟨code', values', e, -, hc⟩
        simp only [Event.finish.injEq, true_and] at e
        obtain ⟨rfl, rfl⟩ := e
        rw [key.mpr hc]
        simp
    · have : ∀ t, ((w.set h t).threads g).phase ≠ .returned r := by
        intro t; rw [set_other _ _ (Ne.symm hg)]; exact hrun r
      constructor
      · intro e
        exfalso
        revert e
        split
        · split <;> exact this _
        · exact hrun r
      · rintro ⟨_, _, e, -⟩
        simp only [Event.finish.injEq] at e
        exact absurd e.1 hg

/-! ### C48 Cancellation -/

/-- `Generate` is being executed. -/
def Running (p : Phase D) : Prop :=
  p ≠ .idle ∧ (∀ r, p ≠ .returned r) ∧ p ≠ .threw ∧ ∀ f, p ≠ .crashed f

theorem flag_kept {msg : Exit → String} {w : World D} {es : List (Event D)}
    (hes : ∀ h, .start h ∉ es) (hw : w.flag ≠ 0) : (w.run msg es).flag ≠ 0 := by
  refine run_invariant (P := fun _ w => w.flag ≠ 0) hw ?_
  intro pre e w' w'' he hf hs
  cases hs <;> first
    | exact hf
    | exact one_ne_zero
    | exact absurd he (hes _)

theorem flag_clear {msg : Exit → String} {w : World D} {es : List (Event D)}
    (hes : .cancel ∉ es) (hw : w.flag = 0) : (w.run msg es).flag = 0 := by
  refine run_invariant (P := fun _ w => w.flag = 0) hw ?_
  intro pre e w' w'' he hf hs
  cases hs <;> first
    | exact hf
    | rfl
    | exact absurd he hes

theorem returned_kept {msg : Exit → String} {w : World D} {es : List (Event D)} {g : ℕ}
    {r : GenResult D} (hes : .start g ∉ es) (hw : (w.threads g).phase = .returned r) :
    ((w.run msg es).threads g).phase = .returned r := by
  refine run_invariant (P := fun _ w => (w.threads g).phase = .returned r) hw ?_
  intro pre e w' w'' he hf hs
  have key : ∀ h t, (∀ r, (w'.threads h).phase ≠ .returned r) →
      ((w'.set h t).threads g).phase = .returned r := by
    intro h t hne
    rw [set_other]
    · exact hf
    · rintro rfl; exact hne _ hf
  cases hs
  case stutter => exact hf
  case tick => exact hf
  case cancel => exact hf
  case start h hp =>
    have : g ≠ h := by rintro rfl; exact hes he
    change ((w'.set h _).threads g).phase = _
    rw [set_other _ _ this]
    exact hf
  all_goals
    rename_i h
    first
      | exact key _ _ (by intro r; simp_all)

/-- C47: a result stays as it is until `Generate` is called again on the same generator. -/
theorem C47_final (msg : Exit → String) (w : World D) (es : List (Event D)) (g : ℕ)
    (r : GenResult D) (hes : .start g ∉ es) (hw : (w.threads g).phase = .returned r) :
    ((w.run msg es).threads g).phase = .returned r :=
  returned_kept hes hw

/-- The generator whose thread takes the step, if any. -/
def actor : Event D → Option ℕ
  | .tick _ | .cancel => none
  | .start g | .iterate g _ | .readClock g | .checkRate g | .stamp g | .call g _ | .throw g | .poll g
  | .finish g _ _ => some g

/-- C47: what other threads do changes nothing about a generation but the cancellation flag, the
clock and the time of the last round of callbacks. -/
theorem C47_separate (msg : Exit → String) (w : World D) (g : ℕ) (es : List (Event D))
    (hes : ∀ e ∈ es, actor e ≠ some g) : (w.run msg es).threads g = w.threads g := by
  refine run_invariant (P := fun _ w' => w'.threads g = w.threads g) rfl ?_
  intro pre e w' w'' he hf hs
  rw [← hf]
  have hne := hes e he
  cases hs
  case stutter => rfl
  case tick => rfl
  case cancel => rfl
  all_goals
    simp only [actor, ne_eq, Option.some.injEq] at hne
    exact set_other _ _ fun h => hne h.symm

/-- C48: a generation that is running when `cancel_all` is called returns an error the next time it
looks at the flag, if no `Generate` call starts before that, and that is then its result. -/
theorem C48_stops (msg : Exit → String) (w : World D) (g : ℕ) (es es' : List (Event D))
    (hes : ∀ h, .start h ∉ es) (hes' : .start g ∉ es')
    (hp : ((w.run msg (.cancel :: es)).threads g).phase = .polling) :
    ((w.run msg (.cancel :: es ++ .poll g :: es')).threads g).phase =
      .returned (.error (msg .callbackRequestedStop)) := by
  rw [run_append, run_cons]
  refine returned_kept hes' ?_
  have hf : (w.run msg (.cancel :: es)).flag ≠ 0 := flag_kept (w := w.step msg .cancel) hes one_ne_zero
  simp only [World.step, hp, conclude_stop, if_pos hf, set_same]

/-- The solution can be read off the variables, whatever their values. -/
def Sound (g : Generator D) : Prop :=
  ∀ values, ∃ sol, (g.withValues values).constructSwerveSolution = .ok sol

theorem sound_of_construct [Dbl D] {b : Builder D} (hb : Reachable b) {dr : SwerveDrivetrain D}
    (hr : Ready b dr) {handle : ℤ} {g : Generator D} (hg : Generator.construct b handle = .ok g) :
    Sound g := by
  intro values
  obtain ⟨sol, h, -⟩ := C44_solution b hb dr hr handle g hg values
  exact ⟨sol, h⟩

theorem Sound.withValues {g : Generator D} (h : Sound g) (values : ℕ → D) :
    Sound (g.withValues values) := fun v => h v

theorem Sound.construct {g : Generator D} (h : Sound g) :
    ∃ sol, g.constructSwerveSolution = .ok sol := h g.problem.values

/-- No schedule makes a generation crash or throw. -/
theorem C47_never_crashes (msg : Exit → String) (gens : ℕ → Generator D) (hg : ∀ g, Sound (gens g))
    (es : List (Event D)) (g : ℕ) (f : Fault) :
    (((World.new gens).run msg es).threads g).phase ≠ .crashed f := by
  suffices h : ∀ P, P = (fun (_ : List (Event D)) (w : World D) => ∀ g, Sound (w.threads g).generator ∧
      ∀ f, (w.threads g).phase ≠ .crashed f) →
      P es ((World.new gens).run msg es) from (h _ rfl g).2 f
  intro P hP
  refine run_invariant (P := P) ?_ ?_ <;> subst hP
  · exact fun g => ⟨hg g, by simp [World.new]⟩
  · intro pre e w w' he hI hs
    have key : ∀ h (t : Thread D), (Sound t.generator ∧ ∀ f, t.phase ≠ .crashed f) →
        ∀ g, Sound ((w.set h t).threads g).generator ∧
          ∀ f, ((w.set h t).threads g).phase ≠ .crashed f := by
      intro h t ht g
      rw [set_threads]
      split
      · exact ht
      · exact hI g
    cases hs
    case stutter => exact hI
    case tick => exact hI
    case cancel => exact hI
    case stampCrash h now f hp hs =>
      obtain ⟨sol, e⟩ := (hI h).1.construct
      rw [e] at hs; cases hs
    case finishCrash h code values f hp hr =>
      obtain ⟨sol, e⟩ := (hI h).1 values
      simp only [Generator.conclude, e] at hr
      split at hr <;> cases hr
    case iterate h values hp => exact key _ _ ⟨(hI h).1.withValues _, by simp⟩
    case finish h code values r hp hr => exact key _ _ ⟨(hI h).1.withValues _, by simp⟩
    all_goals exact key _ _ ⟨(hI _).1, by simp⟩

theorem calls_run (msg : Exit → String) (g : ℕ) (rest : List ℕ) : ∀ (w : World D) soln,
    (w.threads g).phase = .calling soln rest →
    ((w.run msg (List.replicate (rest.length + 1) (.call g id))).threads g).phase = .polling := by
  induction rest with
  | nil =>
    intro w soln h
    simp [World.run, World.step, h]
  | cons c rest ih =>
    intro w soln h
    rw [List.length_cons, List.replicate_succ, run_cons]
    refine ih _ (id soln) ?_
    simp only [World.step, h]
    exact congrArg Thread.phase (set_same _ _ _)

theorem calls_polling (msg : Exit → String) (g n : ℕ) (w : World D)
    (h : (w.threads g).phase = .polling) : w.run msg (List.replicate n (.call g id)) = w := by
  induction n with
  | zero => rfl
  | succ n ih =>
    rw [List.replicate_succ, run_cons, show w.step msg (.call g id) = w by simp [World.step, h], ih]

/-- The steps of one iteration of generator `g` with `n` callbacks. -/
def iteration (g n : ℕ) (values : ℕ → D) : List (Event D) :=
  [.iterate g values, .readClock g, .checkRate g, .stamp g] ++
    List.replicate (n + 1) (.call g id) ++ [.poll g]

theorem iteration_polls (msg : Exit → String) (w : World D) (g : ℕ) (values : ℕ → D)
    (hs : Sound (w.threads g).generator) (hp : (w.threads g).phase = .solving) :
    ((w.run msg ([.iterate g values, .readClock g, .checkRate g, .stamp g] ++ List.replicate
      ((w.threads g).generator.path.callbacks.length + 1) (.call g id))).threads g).phase =
      .polling := by
  obtain ⟨sol, hsol⟩ := hs values
  rw [run_append]
  obtain ⟨w1, e1, p1, g1, l1⟩ : ∃ w1, w.run msg [.iterate g values, .readClock g] = w1 ∧
      (w1.threads g).phase = .clocked w.clock ∧
      (w1.threads g).generator = (w.threads g).generator.withValues values ∧
      ∃ l, w1.lastFrame = some l := by
    refine ⟨_, rfl, ?_⟩
    cases hl : w.lastFrame <;> simp [World.run, World.step, hp, World.set, hl]
  obtain ⟨l, l1⟩ := l1
  rw [show ([.iterate g values, .readClock g, .checkRate g, .stamp g] : List (Event D)) =
    [.iterate g values, .readClock g] ++ [.checkRate g, .stamp g] from rfl, run_append, e1]
  by_cases ht : tooSoon w.clock l = true
  · have : ((w1.run msg [.checkRate g, .stamp g]).threads g).phase = .polling := by
      simp [World.run, World.step, p1, l1, ht, World.set]
    rw [calls_polling _ _ _ _ this]
    exact this
  · have : ((w1.run msg [.checkRate g, .stamp g]).threads g).phase =
        .calling sol (w.threads g).generator.path.callbacks := by
      simp only [World.run, List.foldl_cons, List.foldl_nil, World.step, p1, l1, ht, World.set, if_true,
        g1, hsol, Bool.false_eq_true, if_false]
      rfl
    exact calls_run msg g _ _ _ this

/-- C48: so after `cancel_all` a generation gets through at most one more iteration. -/
theorem C48_next_iteration (msg : Exit → String) (w : World D) (g : ℕ) (values : ℕ → D)
    (hs : Sound (w.threads g).generator) (hp : (w.threads g).phase = .solving) :
    ((w.run msg (.cancel :: iteration g (w.threads g).generator.path.callbacks.length
      values)).threads g).phase = .returned (.error (msg .callbackRequestedStop)) := by
  have h := iteration_polls msg (w.step msg .cancel) g values hs hp
  rw [show (w.step msg .cancel).threads g = w.threads g from rfl, ← run_cons] at h
  have := C48_stops msg w g (([.iterate g values, .readClock g, .checkRate g, .stamp g] :
    List (Event D)) ++
    List.replicate ((w.threads g).generator.path.callbacks.length + 1) (Event.call g id)) []
    (by simp) (by simp) h
  rw [iteration]
  simpa using this

/-- C48: a generation is not affected by a cancellation before its start: if it returns without
`cancel_all` having been called since, then because its solver ended by itself. -/
theorem C48_unaffected (msg : Exit → String) (w : World D) (g : ℕ) (es : List (Event D))
    (hidle : (w.threads g).phase = .idle ∨ (∃ r, (w.threads g).phase = .returned r) ∨
      (w.threads g).phase = .threw)
    (hes : .cancel ∉ es) (r : GenResult D)
    (hr : ((w.run msg (.start g :: es)).threads g).phase = .returned r) :
    ∃ code values, .finish g code values ∈ es ∧
      ∃ values', Concluded msg ((w.threads g).generator.withValues values') code values r := by
  suffices h : ∀ P, P = (fun es' (w' : World D) => w'.flag = 0 ∧
      (∃ values', (w'.threads g).generator = (w.threads g).generator.withValues values') ∧
      ∀ r, (w'.threads g).phase = .returned r → ∃ code values, .finish g code values ∈ es' ∧
        ∃ values', Concluded msg ((w.threads g).generator.withValues values') code values r) →
      P es ((w.step msg (.start g)).run msg es) from (h _ rfl).2.2 r hr
  intro P hP
  have h0 : w.step msg (.start g) =
      { w.set g { w.threads g with phase := .solving } with flag := 0 } := by
    rcases hidle with h | ⟨r, h⟩ | h <;> simp [World.step, h]
  refine run_invariant (P := P) ?_ ?_ <;> subst hP
  · rw [h0]
    refine ⟨rfl, ⟨(w.threads g).generator.problem.values, ?_⟩, ?_⟩
    · simp only [set_same]; rfl
    · intro r h
      have := (congrArg Thread.phase (set_same w g { w.threads g with phase := .solving })).symm.trans h
      cases this
  · intro pre e w' w'' he ⟨hf, ⟨v, hv⟩, hret⟩ hs
    have hret' : ∀ e : Event D, ∀ r, (w'.threads g).phase = .returned r →
        ∃ code values, .finish g code values ∈ pre ++ [e] ∧
        ∃ values', Concluded msg ((w.threads g).generator.withValues values') code values r := by
      intro e r h
      obtain ⟨c, v, h1, h2⟩ := hret r h
      exact ⟨c, v, by simp [h1], h2⟩
    have key : ∀ (e : Event D) h (t : Thread D), (∀ r, t.phase ≠ .returned r) →
        (h = g → ∃ values', t.generator = (w.threads g).generator.withValues values') →
        (∃ values', ((w'.set h t).threads g).generator =
          (w.threads g).generator.withValues values') ∧
        ∀ r, ((w'.set h t).threads g).phase = .returned r →
          ∃ code values, .finish g code values ∈ pre ++ [e] ∧
          ∃ values', Concluded msg ((w.threads g).generator.withValues values') code values r := by
      intro e h t h1 h2
      rw [set_threads]
      by_cases hg : g = h
      · rw [if_pos hg]; exact ⟨h2 hg.symm, fun r hr => absurd hr (h1 r)⟩
      · rw [if_neg hg]; exact ⟨⟨v, hv⟩, hret' e⟩
    cases hs
    case stutter => exact ⟨hf, ⟨v, hv⟩, hret' _⟩
    case tick => exact ⟨hf, ⟨v, hv⟩, hret' _⟩
    case cancel => exact absurd he hes
    case start h hp => exact ⟨rfl, key _ _ _ (by simp) (by rintro rfl; exact ⟨v, hv⟩)⟩
    case stop h hp hf' => exact absurd hf hf'
    case iterate h values hp =>
      exact ⟨hf, key _ _ _ (by simp) (by rintro rfl; exact ⟨values, by rw [hv]; rfl⟩)⟩
    case finishCrash h code values f hp hr =>
      exact ⟨hf, key _ _ _ (by simp) (by rintro rfl; exact ⟨values, by rw [hv]; rfl⟩)⟩
    case finish h code values r hp hr =>
      refine ⟨hf, ?_⟩
      rw [set_threads]
      by_cases hg : g = h
      · subst hg
        rw [if_pos rfl]
        refine ⟨⟨values, by rw [hv]; rfl⟩, ?_⟩
        intro r' hr'
        obtain rfl := Phase.returned.inj hr'
        refine ⟨code, values, by simp, v, ?_⟩
        rw [← hv]
        exact (conclude_other msg _ code r values).mp hr
      · rw [if_neg hg]; exact ⟨⟨v, hv⟩, hret' _⟩
    all_goals exact ⟨hf, key _ _ _ (by simp) (by rintro rfl; exact ⟨v, hv⟩)⟩

/-- C48: the exception is real.  A `Generate` call that starts after `cancel_all` lets the others
go on. -/
theorem C48_lost_cancel (msg : Exit → String) (w : World D) (g h : ℕ) (hne : h ≠ g)
    (hg : (w.threads g).phase = .polling) (hh : (w.threads h).phase = .idle) :
    ((w.run msg [.cancel, .start h, .poll g]).threads g).phase = .solving := by
  simp [World.run, World.step, World.set, hg, hh, hne.symm]

/-! ### C50 Rounds of callbacks -/

/-- Callbacks still to be called in the current round. -/
def pending : Phase D → List ℕ
  | .calling _ rest => rest
  | _ => []

/-- Calls made by generator `g`. -/
def callsBy (w : World D) (g : ℕ) : List (Call D) := w.calls.filter (·.gen == g)

/-- Rounds of generator `g`. -/
def roundsBy (w : World D) (g : ℕ) : List (Round D) := w.rounds.filter (·.gen == g)

/-- C50: the calls a generator has made, and those still to be made in the current round, are
all callbacks registered on its builder, in that order, once per round, with its handle, if none of
them throws (otherwise: C86). -/
theorem C50_order (msg : Exit → String) (gens : ℕ → Generator D) (es : List (Event D)) (g : ℕ)
    (hes : .throw g ∉ es) (w : World D) (hw : w = (World.new gens).run msg es) :
    (callsBy w g).map (·.callback) ++ pending (w.threads g).phase =
      (roundsBy w g).flatMap (fun _ => (gens g).path.callbacks) ∧
    ∀ c ∈ callsBy w g, c.handle = (gens g).handle := by
  subst hw
  suffices h : ∀ P, P = (fun (_ : List (Event D)) (w : World D) =>
      ((w.threads g).generator.path = (gens g).path ∧
        (w.threads g).generator.handle = (gens g).handle) ∧
      (callsBy w g).map (·.callback) ++ pending (w.threads g).phase =
        (roundsBy w g).flatMap (fun _ => (gens g).path.callbacks) ∧
      ∀ c ∈ callsBy w g, c.handle = (gens g).handle) →
      P es ((World.new gens).run msg es) from (h _ rfl).2
  intro P hP
  refine run_invariant (P := P) ?_ ?_ <;> subst hP
  · exact ⟨⟨rfl, rfl⟩, by simp [World.new, callsBy, roundsBy, pending]⟩
  intro pre e w w' he ⟨⟨hpath, hhandle⟩, hcalls, hhand⟩ hs
  have key : ∀ h (t : Thread D), (h = g → (t.generator.path = (gens g).path ∧
      t.generator.handle = (gens g).handle) ∧ pending t.phase = pending (w.threads g).phase) →
      (((w.set h t).threads g).generator.path = (gens g).path ∧
        ((w.set h t).threads g).generator.handle = (gens g).handle) ∧
      (callsBy w g).map (·.callback) ++ pending ((w.set h t).threads g).phase =
        (roundsBy w g).flatMap (fun _ => (gens g).path.callbacks) ∧
      ∀ c ∈ callsBy w g, c.handle = (gens g).handle := by
    intro h t ht
    rw [set_threads]
    by_cases hg : g = h
    · obtain ⟨h1, h2⟩ := ht hg.symm
      rw [if_pos hg, h2]
      exact ⟨h1, hcalls, hhand⟩
    · rw [if_neg hg]
      exact ⟨⟨hpath, hhandle⟩, hcalls, hhand⟩
  cases hs
  case stutter => exact ⟨⟨hpath, hhandle⟩, hcalls, hhand⟩
  case tick => exact ⟨⟨hpath, hhandle⟩, hcalls, hhand⟩
  case cancel => exact ⟨⟨hpath, hhandle⟩, hcalls, hhand⟩
  case start h hp =>
    refine key h _ ?_
    rintro rfl
    refine ⟨⟨hpath, hhandle⟩, ?_⟩
    rcases hp with hp | ⟨r, hp⟩ | hp <;> rw [hp] <;> rfl
  case stamp h now soln hp hs =>
    by_cases hg : g = h
    · subst hg
      refine ⟨?_, ?_, hhand⟩
      · simp only [set_threads, if_true]; exact ⟨hpath, hhandle⟩
      · simp only [callsBy, roundsBy, set_calls, set_threads, if_true, pending, List.filter_append,
          List.flatMap_append, hpath] at hcalls ⊢
        rw [hp] at hcalls
        simp only [List.append_nil] at hcalls
        rw [hcalls]
        simp
    · have hg' : ¬ h = g := fun h => hg h.symm
      refine ⟨?_, ?_, hhand⟩
      · simp only [set_threads, hg, if_false]; exact ⟨hpath, hhandle⟩
      · simp only [callsBy, roundsBy, set_calls, set_threads, hg, if_false, List.filter_append] at hcalls ⊢
        rw [hcalls]
        simp [hg']
  case call h edit soln c rest hp =>
    by_cases hg : g = h
    · subst hg
      refine ⟨?_, ?_, ?_⟩
      · simp only [set_threads, if_true]; exact ⟨hpath, hhandle⟩
      · simp only [callsBy, roundsBy, set_rounds, set_threads, if_true, pending, List.filter_append] at hcalls ⊢
        rw [hp] at hcalls
        rw [← hcalls]
        simp
      · simp only [callsBy, List.filter_append, List.mem_append]
        rintro c' (hc | hc)
        · exact hhand c' hc
        · simp at hc; rw [hc]; exact hhandle
    · have hg' : ¬ h = g := fun h => hg h.symm
      refine ⟨?_, ?_, ?_⟩
      · simp only [set_threads, hg, if_false]; exact ⟨hpath, hhandle⟩
      · simp only [callsBy, roundsBy, set_rounds, set_threads, hg, if_false, List.filter_append] at hcalls ⊢
        rw [← hcalls]
        simp [hg']
      · simp only [callsBy, List.filter_append, List.mem_append]
        rintro c' (hc | hc)
        · exact hhand c' hc
        · simp [hg'] at hc
  case throw h soln c rest hp =>
    have hg : g ≠ h := by rintro rfl; exact hes he
    have hg' : ¬ h = g := fun h => hg h.symm
    have := key h { w.threads h with phase := .threw } (fun h => absurd h hg')
    simpa [callsBy, roundsBy, hg'] using this
  case iterate h values hp =>
    refine key h _ ?_
    rintro rfl
    exact ⟨⟨hpath, hhandle⟩, by rw [hp]; rfl⟩
  case finish h code values r hp hr =>
    refine key h _ ?_
    rintro rfl
    exact ⟨⟨hpath, hhandle⟩, by rw [hp]; rfl⟩
  case finishCrash h code values f hp hr =>
    refine key h _ ?_
    rintro rfl
    exact ⟨⟨hpath, hhandle⟩, by rw [hp]; rfl⟩
  case readClock h hp =>
    exact key h _ (by rintro rfl; exact ⟨⟨hpath, hhandle⟩, by rw [hp]; rfl⟩)
  case soon h now last hp hl ht =>
    exact key h _ (by rintro rfl; exact ⟨⟨hpath, hhandle⟩, by rw [hp]; rfl⟩)
  case pass h now last hp hl ht =>
    exact key h _ (by rintro rfl; exact ⟨⟨hpath, hhandle⟩, by rw [hp]; rfl⟩)
  case stampCrash h now f hp hs =>
    exact key h _ (by rintro rfl; exact ⟨⟨hpath, hhandle⟩, by rw [hp]; rfl⟩)
  case called h edit soln hp =>
    exact key h _ (by rintro rfl; exact ⟨⟨hpath, hhandle⟩, by rw [hp]; rfl⟩)
  case stop h hp hf =>
    exact key h _ (by rintro rfl; exact ⟨⟨hpath, hhandle⟩, by rw [hp]; rfl⟩)
  case goOn h hp hf =>
    exact key h _ (by rintro rfl; exact ⟨⟨hpath, hhandle⟩, by rw [hp]; rfl⟩)

/-- C50: if no callback changes the solution it is handed, every callback of a round gets the
round's solution. -/
theorem C50_solution_partial (msg : Exit → String) (gens : ℕ → Generator D) (es : List (Event D))
    (hes : ∀ g edit, .call g edit ∈ es → edit = id) (g : ℕ) (ht : .throw g ∉ es) (w : World D)
    (hw : w = (World.new gens).run msg es) (hdone : ∀ soln rest, (w.threads g).phase ≠ .calling soln rest) :
    callsBy w g = (roundsBy w g).flatMap fun r =>
      (gens g).path.callbacks.map fun c => ⟨g, c, r.soln, (gens g).handle⟩ := by
  suffices h : ∀ P, P = (fun (_ : List (Event D)) (w : World D) =>
      ((w.threads g).generator.path = (gens g).path ∧
        (w.threads g).generator.handle = (gens g).handle) ∧
      ((∀ soln rest, (w.threads g).phase ≠ .calling soln rest) →
        callsBy w g = (roundsBy w g).flatMap fun r =>
          (gens g).path.callbacks.map fun c => ⟨g, c, r.soln, (gens g).handle⟩) ∧
      (∀ soln rest, (w.threads g).phase = .calling soln rest →
        callsBy w g ++ (rest.map fun c => ⟨g, c, soln, (gens g).handle⟩) =
          (roundsBy w g).flatMap fun r =>
            (gens g).path.callbacks.map fun c => ⟨g, c, r.soln, (gens g).handle⟩)) →
      P es w from (h _ rfl).2.1 hdone
  intro P hP
  subst hw
  refine run_invariant (P := P) ?_ ?_ <;> subst hP
  · exact ⟨⟨rfl, rfl⟩, by simp [World.new, callsBy, roundsBy], by simp [World.new]⟩
  intro pre e w w' he ⟨⟨hpath, hhandle⟩, hout, hin⟩ hs
  have key : ∀ h (t : Thread D), (h = g → (t.generator.path = (gens g).path ∧
      t.generator.handle = (gens g).handle) ∧ (∀ soln rest, t.phase ≠ .calling soln rest) ∧
      ((∀ soln rest, (w.threads g).phase ≠ .calling soln rest) ∨
        ∃ soln, (w.threads g).phase = .calling soln [])) →
      (((w.set h t).threads g).generator.path = (gens g).path ∧
        ((w.set h t).threads g).generator.handle = (gens g).handle) ∧
      ((∀ soln rest, ((w.set h t).threads g).phase ≠ .calling soln rest) →
        callsBy w g = (roundsBy w g).flatMap fun r =>
          (gens g).path.callbacks.map fun c => ⟨g, c, r.soln, (gens g).handle⟩) ∧
      (∀ soln rest, ((w.set h t).threads g).phase = .calling soln rest →
        callsBy w g ++ (rest.map fun c => ⟨g, c, soln, (gens g).handle⟩) =
          (roundsBy w g).flatMap fun r =>
            (gens g).path.callbacks.map fun c => ⟨g, c, r.soln, (gens g).handle⟩) := by
    intro h t ht
    rw [set_threads]
    by_cases hg : g = h
    · obtain ⟨h1, h2, h3⟩ := ht hg.symm
      rw [if_pos hg]
      refine ⟨h1, fun _ => ?_, fun s r e => absurd e (h2 s r)⟩
      rcases h3 with h3 | ⟨soln, h3⟩
      · exact hout h3
      · simpa using hin soln [] h3
    · rw [if_neg hg]
      exact ⟨⟨hpath, hhandle⟩, hout, hin⟩
  cases hs
  case stutter => exact ⟨⟨hpath, hhandle⟩, hout, hin⟩
  case tick => exact ⟨⟨hpath, hhandle⟩, hout, hin⟩
  case cancel => exact ⟨⟨hpath, hhandle⟩, hout, hin⟩
  case start h hp =>
    refine key h _ ?_
    rintro rfl
    refine ⟨⟨hpath, hhandle⟩, by simp, .inl ?_⟩
    rcases hp with hp | ⟨r, hp⟩ | hp <;> rw [hp] <;> simp
  case stamp h now soln hp hs =>
    by_cases hg : g = h
    · subst hg
      refine ⟨?_, ?_, ?_⟩
      · simp only [set_threads, if_true]; exact ⟨hpath, hhandle⟩
      · simp only [set_threads, if_true]
        intro h; exact absurd rfl (h _ _)
      · simp only [set_threads, if_true]
        intro s r e
        injection e with e1 e2
        subst e1 e2
        have h1 := hout (by rw [hp]; simp)
        simp only [callsBy, roundsBy, set_calls, List.filter_append, List.flatMap_append,
          hpath] at h1 ⊢
        rw [h1]
        simp
    · have hg' : ¬ h = g := fun h => hg h.symm
      simp only [callsBy, roundsBy, set_calls, set_threads, hg, if_false, List.filter_append]
        at hout hin ⊢
      refine ⟨⟨hpath, hhandle⟩, ?_⟩
      simpa [hg'] using ⟨hout, hin⟩
  case call h edit soln c rest hp =>
    obtain rfl := hes h edit he
    by_cases hg : g = h
    · subst hg
      refine ⟨?_, ?_, ?_⟩
      · simp only [set_threads, if_true]; exact ⟨hpath, hhandle⟩
      · simp only [set_threads, if_true]
        intro h; exact absurd rfl (h _ _)
      · simp only [set_threads, if_true]
        intro s r e
        injection e with e1 e2
        subst e1 e2
        have h1 := hin _ _ hp
        simp only [callsBy, roundsBy, set_rounds, List.filter_append] at h1 ⊢
        rw [← h1, hhandle]
        simp
    · have hg' : ¬ h = g := fun h => hg h.symm
      simp only [callsBy, roundsBy, set_rounds, set_threads, hg, if_false, List.filter_append]
        at hout hin ⊢
      refine ⟨⟨hpath, hhandle⟩, ?_⟩
      simpa [hg'] using ⟨hout, hin⟩
  case throw h soln c rest hp =>
    have hg : g ≠ h := by rintro rfl; exact ht he
    have hg' : ¬ h = g := fun h => hg h.symm
    have := key h { w.threads h with phase := .threw } (fun h => absurd h hg')
    simpa [callsBy, roundsBy, hg'] using this
  case called h edit soln hp =>
    exact key h _ (by rintro rfl; exact ⟨⟨hpath, hhandle⟩, by simp, .inr ⟨_, hp⟩⟩)
  all_goals
    rename_i h _
    exact key _ _ (by rintro rfl; exact ⟨⟨hpath, hhandle⟩, by simp, .inl (by simp_all)⟩)

/-- C50: within one iteration (until the flag is read, or `Generate` is called again after an
exception) there is at most one round, and its solution is the one made of the values of that
iteration, whatever other threads do. -/
theorem C50_current (msg : Exit → String) (w : World D) (g : ℕ) (values : ℕ → D)
    (es : List (Event D)) (hp : (w.threads g).phase = .solving) (hes : .poll g ∉ es)
    (hes' : .start g ∉ es) (w' : World D)
    (hw : w' = w.run msg (.iterate g values :: es)) :
    roundsBy w' g = roundsBy w g ∨
    ∃ now soln, roundsBy w' g = roundsBy w g ++ [⟨now, g, soln⟩] ∧
      ((w.threads g).generator.withValues values).constructSwerveSolution = .ok soln := by
  suffices h : ∀ P, P = (fun (_ : List (Event D)) (w' : World D) =>
      (w'.threads g).generator = (w.threads g).generator.withValues values ∧
      (((w'.threads g).phase = .entered ∨ (∃ now, (w'.threads g).phase = .clocked now) ∨
        (∃ now, (w'.threads g).phase = .passed now)) ∧ roundsBy w' g = roundsBy w g ∨
      ((∃ soln rest, (w'.threads g).phase = .calling soln rest) ∨
        (w'.threads g).phase = .polling ∨ (w'.threads g).phase = .threw ∨ ∃ f, (w'.threads g).phase = .crashed f) ∧
        (roundsBy w' g = roundsBy w g ∨
        ∃ now soln, roundsBy w' g = roundsBy w g ++ [⟨now, g, soln⟩] ∧
          ((w.threads g).generator.withValues values).constructSwerveSolution = .ok soln))) →
      P es w' by
    rcases (h _ rfl).2 with ⟨-, h⟩ | ⟨-, h⟩
    · exact .inl h
    · exact h
  intro P hP
  subst hw
  rw [run_cons]
  refine run_invariant (P := P) ?_ ?_ <;> subst hP
  · simp only [World.step, hp]
    exact ⟨by simp only [set_same], .inl ⟨.inl (by simp only [set_same]), rfl⟩⟩
  intro pre e w1 w2 he ⟨hgen, hI⟩ hs
  have other : ∀ h (t : Thread D), g ≠ h → ((w1.set h t).threads g) = w1.threads g :=
    fun h t hg => set_other _ _ hg
  cases hs
  case stutter => exact ⟨hgen, hI⟩
  case tick => exact ⟨hgen, hI⟩
  case cancel => exact ⟨hgen, hI⟩
  case stop h hp' hf =>
    have hg : g ≠ h := by rintro rfl; exact hes he
    simp only [other _ _ hg]; exact ⟨hgen, hI⟩
  case goOn h hp' hf =>
    have hg : g ≠ h := by rintro rfl; exact hes he
    simp only [other _ _ hg]; exact ⟨hgen, hI⟩
  case start h hp' =>
    have hg : g ≠ h := by rintro rfl; exact hes' he
    simp only [other _ _ hg]; exact ⟨hgen, hI⟩
  case iterate h v hp' =>
    have hg : g ≠ h := by rintro rfl; simp [hp'] at hI
    simp only [other _ _ hg]; exact ⟨hgen, hI⟩
  case finish h c v r hp' hr =>
    have hg : g ≠ h := by rintro rfl; simp [hp'] at hI
    simp only [other _ _ hg]; exact ⟨hgen, hI⟩
  case finishCrash h c v f hp' hr =>
    have hg : g ≠ h := by rintro rfl; simp [hp'] at hI
    simp only [other _ _ hg]; exact ⟨hgen, hI⟩
  case readClock h hp' =>
    by_cases hg : g = h
    · subst hg
      simp only [hp', reduceCtorEq, exists_false, or_self, false_and, or_false, true_and] at hI
      exact ⟨by simpa only [set_same] using hgen, .inl ⟨by simp, hI⟩⟩
    · simp only [other _ _ hg]; exact ⟨hgen, hI⟩
  case soon h now last hp' hl ht =>
    by_cases hg : g = h
    · subst hg
      simp only [hp', reduceCtorEq, exists_false, or_self, false_and, or_false, false_or] at hI
      exact ⟨by simpa only [set_same] using hgen, .inr ⟨by simp, .inl hI.2⟩⟩
    · simp only [other _ _ hg]; exact ⟨hgen, hI⟩
  case pass h now last hp' hl ht =>
    by_cases hg : g = h
    · subst hg
      simp only [hp', reduceCtorEq, exists_false, or_self, false_and, or_false, false_or] at hI
      exact ⟨by simpa only [set_same] using hgen, .inl ⟨by simp, hI.2⟩⟩
    · simp only [other _ _ hg]; exact ⟨hgen, hI⟩
  case stamp h now soln hp' hs =>
    by_cases hg : g = h
    · subst hg
      simp only [hp', reduceCtorEq, exists_false, or_self, false_and, or_false, false_or] at hI
      refine ⟨by simpa only [set_same] using hgen, .inr ⟨by simp, .inr ⟨now, soln, ?_, ?_⟩⟩⟩
      · rw [← hI.2]; simp [roundsBy]
      · rw [← hgen]; exact hs
    · have h1 : ∀ (w' : World D), w'.rounds = w1.rounds ++ [⟨now, h, soln⟩] →
          roundsBy w' g = roundsBy w1 g := by
        intro w' h2
        simp [roundsBy, h2, Ne.symm hg]
      rw [h1 _ rfl]
      simp only [set_threads, hg, if_false]
      exact ⟨hgen, hI⟩
  case stampCrash h now f hp' hs =>
    by_cases hg : g = h
    · subst hg
      simp only [hp', reduceCtorEq, exists_false, or_self, false_and, or_false, false_or] at hI
      exact ⟨by simpa only [set_same] using hgen, .inr ⟨by simp, .inl hI.2⟩⟩
    · simp only [other _ _ hg]; exact ⟨hgen, hI⟩
  case call h edit soln c rest hp' =>
    by_cases hg : g = h
    · subst hg
      simp only [hp', reduceCtorEq, exists_false, or_self, false_and, or_false, false_or] at hI
      exact ⟨by simpa only [set_same] using hgen, .inr ⟨by simp, hI.2⟩⟩
    · simp only [other _ _ hg]; exact ⟨hgen, hI⟩
  case throw h soln c rest hp' =>
    by_cases hg : g = h
    · subst hg
      simp only [hp', reduceCtorEq, exists_false, or_self, false_and, or_false, false_or] at hI
      exact ⟨by simpa only [set_same] using hgen, .inr ⟨by simp, hI.2⟩⟩
    · simp only [other _ _ hg]; exact ⟨hgen, hI⟩
  case called h edit soln hp' =>
    by_cases hg : g = h
    · subst hg
      simp only [hp', reduceCtorEq, exists_false, or_self, false_and, or_false, false_or] at hI
      exact ⟨by simpa only [set_same] using hgen, .inr ⟨by simp, hI.2⟩⟩
    · simp only [other _ _ hg]; exact ⟨hgen, hI⟩

/-- C50, what holds: rounds are at least 1/60 s apart, in the whole process, as long as no two
threads are between the check and the update of `lastFrameTime` at the same time.  Missing: concurrent
generations. -/
theorem C50_rate_partial (msg : Exit → String) (gens : ℕ → Generator D) (es : List (Event D))
    (hexcl : ∀ pre post, es = pre ++ post → ∀ g h now now',
      (((World.new gens).run msg pre).threads g).phase = .passed now →
      (((World.new gens).run msg pre).threads h).phase = .passed now' → g = h) :
    ((World.new gens).run msg es).rounds.Pairwise fun r r' =>
      (10 : ℤ) ^ 9 ≤ 60 * ((r'.time : ℤ) - r.time) := by
  suffices h : ∀ pre post, es = pre ++ post →
      (((World.new gens).run msg pre).rounds.Pairwise fun r r' =>
        (10 : ℤ) ^ 9 ≤ 60 * ((r'.time : ℤ) - r.time)) ∧
      (∀ r ∈ ((World.new gens).run msg pre).rounds,
        ∃ l, ((World.new gens).run msg pre).lastFrame = some l ∧ r.time ≤ l) ∧
      (∀ g now, (((World.new gens).run msg pre).threads g).phase = .passed now →
        ∃ l, ((World.new gens).run msg pre).lastFrame = some l ∧
          (10 : ℤ) ^ 9 ≤ 60 * ((now : ℤ) - l)) from (h es [] (by simp)).1
  intro pre
  induction pre using List.reverseRecOn with
  | nil => intro _ _; simp [World.run, World.new]
  | append_singleton pre e ih =>
    intro post hpost
    obtain ⟨h1, h2, h3⟩ := ih (e :: post) (by simp [hpost])
    have hex := hexcl pre (e :: post) (by simp [hpost])
    rw [run_concat]
    have hs := step_spec msg ((World.new gens).run msg pre) e
    revert hs h1 h2 h3 hex
    generalize (World.new gens).run msg pre = w
    generalize w.step msg e = w'
    intro h1 h2 h3 hex hs
    have key : ∀ h (t : Thread D), (∀ now, t.phase ≠ .passed now) → ∀ g now,
        ((w.set h t).threads g).phase = .passed now →
        ∃ l, w.lastFrame = some l ∧ (10 : ℤ) ^ 9 ≤ 60 * ((now : ℤ) - l) := by
      intro h t ht g now hp
      rw [set_threads] at hp
      split at hp
      · exact absurd hp (ht now)
      · exact h3 g now hp
    cases hs
    case stutter => exact ⟨h1, h2, h3⟩
    case tick => exact ⟨h1, h2, h3⟩
    case cancel => exact ⟨h1, h2, h3⟩
    case iterate h v hp =>
      refine ⟨h1, ?_, ?_⟩
      · intro r hr
        obtain ⟨l, hl, hle⟩ := h2 r hr
        exact ⟨l, by simp [hl], hle⟩
      · intro g now hp'
        obtain ⟨l, hl, hle⟩ := key _ _ (by simp) g now hp'
        exact ⟨l, by simp [hl], hle⟩
    case pass h now last hp hl ht =>
      refine ⟨h1, h2, ?_⟩
      intro g now' hp'
      rw [set_threads] at hp'
      split at hp'
      · obtain rfl := Phase.passed.inj hp'
        exact ⟨last, hl, ht⟩
      · exact h3 g now' hp'
    case stamp h now soln hp hs =>
      obtain ⟨l, hl, hle⟩ := h3 h now hp
      refine ⟨?_, ?_, ?_⟩
      · rw [List.pairwise_append]
        refine ⟨h1, by simp, ?_⟩
        intro r hr r' hr'
        simp only [List.mem_singleton] at hr'
        subst hr'
        obtain ⟨l', hl', hle'⟩ := h2 r hr
        rw [hl] at hl'
        obtain rfl := Option.some.inj hl'
        simp only
        omega
      · intro r hr
        refine ⟨now, rfl, ?_⟩
        simp only [List.mem_append, List.mem_singleton] at hr
        rcases hr with hr | rfl
        · obtain ⟨l', hl', hle'⟩ := h2 r hr
          rw [hl] at hl'
          obtain rfl := Option.some.inj hl'
          omega
        · exact le_refl _
      · intro g now' hp'
        exfalso
        simp only [set_threads] at hp'
        split at hp'
        · cases hp'
        · rename_i hne
          exact hne (hex g h now' now hp' hp)
    case stampCrash h now f hp hs =>
      obtain ⟨l, hl, hle⟩ := h3 h now hp
      refine ⟨h1, ?_, ?_⟩
      · intro r hr
        refine ⟨now, rfl, ?_⟩
        obtain ⟨l', hl', hle'⟩ := h2 r hr
        rw [hl] at hl'
        obtain rfl := Option.some.inj hl'
        omega
      · intro g now' hp'
        exfalso
        simp only [set_threads] at hp'
        split at hp'
        · cases hp'
        · rename_i hne
          exact hne (hex g h now' now hp' hp)
    all_goals exact ⟨h1, h2, key _ _ (by simp)⟩

/-- C50: in particular when generations do not overlap. -/
theorem C50_rate_sequential_partial (msg : Exit → String) (gens : ℕ → Generator D)
    (es : List (Event D))
    (hexcl : ∀ pre post, es = pre ++ post → ∀ g h,
      Running (((World.new gens).run msg pre).threads g).phase →
      Running (((World.new gens).run msg pre).threads h).phase → g = h) :
    ((World.new gens).run msg es).rounds.Pairwise fun r r' =>
      (10 : ℤ) ^ 9 ≤ 60 * ((r'.time : ℤ) - r.time) := by
  refine C50_rate_partial msg gens es ?_
  intro pre post h g k now now' hg hk
  exact hexcl pre post h g k (by rw [hg]; simp [Running]) (by rw [hk]; simp [Running])

/-- Generations do not overlap if there is only one. -/
example (msg : Exit → String) (gens : ℕ → Generator D) (es : List (Event D)) (g0 : ℕ)
    (hes : ∀ g, .start g ∈ es → g = g0) : ∀ pre post, es = pre ++ post → ∀ g h,
      Running (((World.new gens).run msg pre).threads g).phase →
      Running (((World.new gens).run msg pre).threads h).phase → g = h := by
  intro pre post hpre
  suffices h : ∀ P, P = (fun (_ : List (Event D)) (w : World D) =>
      ∀ g, g ≠ g0 → (w.threads g).phase = .idle) → P pre ((World.new gens).run msg pre) by
    intro g k hg hk
    by_contra hne
    have h := h _ rfl
    by_cases h1 : g = g0
    · exact hk.1 (h k (by rintro rfl; exact hne h1))
    · exact hg.1 (h g h1)
  intro P hP
  refine run_invariant (P := P) ?_ ?_ <;> subst hP
  · intro g _; rfl
  intro _ e w w' he hI hs
  have key : ∀ h (t : Thread D), h = g0 → ∀ g, g ≠ g0 → ((w.set h t).threads g).phase = .idle := by
    rintro _ t rfl g hg
    rw [set_other _ _ hg]
    exact hI g hg
  have key' : ∀ h, (w.threads h).phase ≠ .idle → h = g0 := by
    intro h hp
    by_contra hne
    exact hp (hI h hne)
  cases hs
  case stutter => exact hI
  case tick => exact hI
  case cancel => exact hI
  case start h hp => exact key h _ (hes h (by simp [hpre, he]))
  all_goals exact key _ _ (key' _ (by simp_all))

/-- C50 as stated is false: two generations at the same time, in threads 0 and 1, can both pass the check
before either updates `lastFrameTime`, and call their callbacks at the same time. -/
theorem C50_rate_refuted (msg : Exit → String) (gens : ℕ → Generator D)
    (hg : ∀ g, Sound (gens g)) (values : ℕ → D) :
    ∃ s s', ((World.new gens).run msg [.start 0, .start 1, .iterate 0 values, .iterate 1 values,
      .tick (10 ^ 9), .readClock 0, .readClock 1, .checkRate 0, .checkRate 1, .stamp 0,
      .stamp 1]).rounds = [⟨10 ^ 9, 0, s⟩, ⟨10 ^ 9, 1, s'⟩] := by
  obtain ⟨s, hs⟩ := hg 0 values
  obtain ⟨s', hs'⟩ := hg 1 values
  refine ⟨s, s', ?_⟩
  simp [World.run, World.step, World.set, World.new, tooSoon, hs, hs']

/-- C50 as stated is false in one more way: a callback may change the solution, and the next one sees
the change. -/
theorem C50_solution_refuted (msg : Exit → String) (gens : ℕ → Generator D)
    (hg : ∀ g, Sound (gens g)) (values : ℕ → D) (c c' : ℕ)
    (hc : (gens 0).path.callbacks = [c, c']) (edit : SwerveSolution D → SwerveSolution D) :
    ∃ s w, w = (World.new gens).run msg [.start 0, .iterate 0 values, .tick (10 ^ 9), .readClock 0,
        .checkRate 0, .stamp 0, .call 0 edit, .call 0 id] ∧
      w.rounds = [⟨10 ^ 9, 0, s⟩] ∧
      w.calls = [⟨0, c, s, (gens 0).handle⟩, ⟨0, c', edit s, (gens 0).handle⟩] := by
  obtain ⟨s, hs⟩ := hg 0 values
  refine ⟨s, _, rfl, ?_⟩
  have hc' : ((gens 0).withValues values).path.callbacks = [c, c'] := hc
  have hh : ((gens 0).withValues values).handle = (gens 0).handle := rfl
  simp [World.run, World.step, World.set, World.new, tooSoon, hs, hc', hh]

/-! ### C49 -/

/-- C49 as stated is false: an iteration within 1/60 s of the last round (the first iteration of the
process counts as one) is completed without any callback. -/
theorem C49_refuted (msg : Exit → String) (gens : ℕ → Generator D) (g : ℕ) (values : ℕ → D)
    (w : World D) (hw : w = (World.new gens).run msg
      [.start g, .iterate g values, .readClock g, .checkRate g, .poll g]) :
    (w.threads g).phase = .solving ∧ w.calls = [] := by
  subst hw
  simp [World.run, World.step, World.set, World.new, tooSoon]

/-- C49, what holds: an iteration whose `now` is at least 1/60 s after the last round runs all registered
callbacks before it ends, unless one of them throws.  Missing: other iterations. -/
theorem C49_partial (msg : Exit → String) (w : World D) (g now last : ℕ) (es : List (Event D))
    (hp : (w.threads g).phase = .clocked now) (hl : w.lastFrame = some last)
    (ht : (10 : ℤ) ^ 9 ≤ 60 * ((now : ℤ) - last)) (hes : .poll g ∉ es)
    (hes' : .start g ∉ es) (w' : World D)
    (hw : w' = w.run msg (.checkRate g :: es)) (hend : (w'.threads g).phase = .polling) :
    (callsBy w' g).map (·.callback) =
      (callsBy w g).map (·.callback) ++ (w.threads g).generator.path.callbacks := by
  suffices h : ∀ P, P = (fun (_ : List (Event D)) (w' : World D) =>
      (w'.threads g).generator = (w.threads g).generator ∧
      ((∃ now, (w'.threads g).phase = .passed now) ∧ callsBy w' g = callsBy w g ∨
       (∃ soln rest, (w'.threads g).phase = .calling soln rest ∧
        (callsBy w' g).map (·.callback) ++ rest =
          (callsBy w g).map (·.callback) ++ (w.threads g).generator.path.callbacks) ∨
       (w'.threads g).phase = .polling ∧ (callsBy w' g).map (·.callback) =
          (callsBy w g).map (·.callback) ++ (w.threads g).generator.path.callbacks ∨
       (w'.threads g).phase = .threw ∨ ∃ f, (w'.threads g).phase = .crashed f)) → P es w' by
    have := (h _ rfl).2
    simpa only [hend, reduceCtorEq, exists_false, false_and, true_and, false_or, or_false] using this
  intro P hP
  subst hw
  rw [run_cons]
  refine run_invariant (P := P) ?_ ?_ <;> subst hP
  · have : tooSoon now last = false := by simp only [tooSoon, decide_eq_false_iff_not]; omega
    simp only [World.step, hp, hl, this, set_same, Bool.false_eq_true, if_false]
    exact ⟨trivial, .inl ⟨⟨now, rfl⟩, rfl⟩⟩
  intro pre e w1 w2 he ⟨hgen, hI⟩ hs
  have other : ∀ h (t : Thread D), g ≠ h → ((w1.set h t).threads g) = w1.threads g :=
    fun h t hg => set_other _ _ hg
  cases hs
  case stutter => exact ⟨hgen, hI⟩
  case tick => exact ⟨hgen, hI⟩
  case cancel => exact ⟨hgen, hI⟩
  case stop h hp' hf =>
    have hg : g ≠ h := by rintro rfl; exact hes he
    simp only [other _ _ hg]; exact ⟨hgen, hI⟩
  case goOn h hp' hf =>
    have hg : g ≠ h := by rintro rfl; exact hes he
    simp only [other _ _ hg]; exact ⟨hgen, hI⟩
  case start h hp' =>
    have hg : g ≠ h := by rintro rfl; exact hes' he
    simp only [other _ _ hg]; exact ⟨hgen, hI⟩
  case stamp h now soln hp' hs =>
    by_cases hg : g = h
    · subst hg
      simp only [hp', reduceCtorEq, exists_false, false_and, or_false] at hI
      refine ⟨by simpa only [set_same] using hgen, .inr (.inl ⟨_, _, by simp only [set_same]; rfl, ?_⟩)⟩
      rw [← hI.2, hgen]; rfl
    · simp only [other _ _ hg]; exact ⟨hgen, hI⟩
  case stampCrash h now f hp' hs =>
    by_cases hg : g = h
    · subst hg
      exact ⟨by simpa only [set_same] using hgen, .inr (.inr (.inr (.inr ⟨f, by simp⟩)))⟩
    · simp only [other _ _ hg]; exact ⟨hgen, hI⟩
  case call h edit soln c rest hp' =>
    by_cases hg : g = h
    · subst hg
      simp only [hp', reduceCtorEq, exists_false, false_and, or_false, false_or,
        Phase.calling.injEq] at hI
      obtain ⟨_, _, ⟨rfl, rfl⟩, hI⟩ := hI
      refine ⟨by simpa only [set_same] using hgen, .inr (.inl ⟨_, _, by simp only [set_same]; rfl, ?_⟩)⟩
      rw [← hI]
      simp [callsBy]
    · have h1 : ∀ (w' : World D) (k : Call D), k.gen = h → w'.calls = w1.calls ++ [k] →
          callsBy w' g = callsBy w1 g := by
        intro w' k hk h2
        simp [callsBy, h2, hk, Ne.symm hg]
      rw [h1 _ _ rfl rfl]
      simp only [set_threads, hg, if_false]
      exact ⟨hgen, hI⟩
  case throw h soln c rest hp' =>
    by_cases hg : g = h
    · subst hg
      exact ⟨by simpa only [set_same] using hgen, .inr (.inr (.inr (.inl (by simp))))⟩
    · have h1 : ∀ (w' : World D) (k : Call D), k.gen = h → w'.calls = w1.calls ++ [k] →
          callsBy w' g = callsBy w1 g := by
        intro w' k hk h2
        simp [callsBy, h2, hk, Ne.symm hg]
      rw [h1 _ _ rfl rfl]
      simp only [set_threads, hg, if_false]
      exact ⟨hgen, hI⟩
  case called h edit soln hp' =>
    by_cases hg : g = h
    · subst hg
      simp only [hp', reduceCtorEq, exists_false, false_and, or_false, false_or,
        Phase.calling.injEq] at hI
      obtain ⟨_, _, ⟨rfl, rfl⟩, hI⟩ := hI
      exact ⟨by simpa only [set_same] using hgen,
        .inr (.inr (.inl ⟨by simp, by simpa [callsBy] using hI⟩))⟩
    · simp only [other _ _ hg]; exact ⟨hgen, hI⟩
  case iterate h v hp' =>
    have hg : g ≠ h := by rintro rfl; simp [hp'] at hI
    simp only [other _ _ hg]; exact ⟨hgen, hI⟩
  case readClock h hp' =>
    have hg : g ≠ h := by rintro rfl; simp [hp'] at hI
    simp only [other _ _ hg]; exact ⟨hgen, hI⟩
  case soon h now last hp' hl ht =>
    have hg : g ≠ h := by rintro rfl; simp [hp'] at hI
    simp only [other _ _ hg]; exact ⟨hgen, hI⟩
  case pass h now last hp' hl ht =>
    have hg : g ≠ h := by rintro rfl; simp [hp'] at hI
    simp only [other _ _ hg]; exact ⟨hgen, hI⟩
  case finish h c v r hp' hr =>
    have hg : g ≠ h := by rintro rfl; simp [hp'] at hI
    simp only [other _ _ hg]; exact ⟨hgen, hI⟩
  case finishCrash h c v f hp' hr =>
    have hg : g ≠ h := by rintro rfl; simp [hp'] at hI
    simp only [other _ _ hg]; exact ⟨hgen, hI⟩

/-! ### A process meeting the hypotheses -/

/-- `demoBuilder` with two callbacks. -/
noncomputable def callbackBuilder : Builder ℝ :=
  (demoBuilder.addIntermediateCallback 7).addIntermediateCallback 8

theorem callback_generator (handle : ℤ) : ∃ g, Generator.construct callbackBuilder handle = .ok g ∧
    Sound g ∧ g.path.callbacks = [7, 8] ∧ g.handle = handle := by
  have r1 := run_snoc (b := demoBuilder) rfl (op := .addIntermediateCallback 7) rfl
  have r2 : callbackBuilder = _ := run_snoc r1 (op := .addIntermediateCallback 8) rfl
  have hready : Ready callbackBuilder demoRobot := ⟨demo_ready.1, demo_ready.2, demo_ready.3⟩
  obtain ⟨sol, -, -, h⟩ := construct_closed ⟨_, _, r2⟩ hready handle
  refine ⟨_, h, sound_of_construct ⟨_, _, r2⟩ hready h, ?_, rfl⟩
  have : (table demoBuilder).callbacks = [] := demo_table.2.2.2.2.2.2
  change (demoBuilder.path.callbacks ++ [7]) ++ [8] = _
  rw [show demoBuilder.path.callbacks = [] from this]
  rfl

/-- Generators with handles 0, 1, 2, … -/
theorem demo_process : ∃ gens : ℕ → Generator ℝ, ∀ g, Sound (gens g) ∧
    (gens g).path.callbacks = [7, 8] ∧ (gens g).handle = g := by
  choose gens h using fun g : ℕ => callback_generator g
  exact ⟨gens, fun g => (h g).2⟩

/-- One second after the start of the process, a round of callbacks 7 and 8 with handle 0; then
`cancel_all` and one more iteration, and `Generate` has returned with an error.  (C47, C48, C49,
C50) -/
example : ∃ (gens : ℕ → Generator ℝ) (w : World ℝ) (s : SwerveSolution ℝ),
    w = (World.new gens).run (fun _ => "stop") ([.start 0, .iterate 0 0, .tick (10 ^ 9), .readClock 0,
      .checkRate 0, .stamp 0, .call 0 id, .call 0 id, .call 0 id, .poll 0, .cancel] ++
      iteration 0 2 0) ∧
    (w.threads 0).phase = .returned (.error "stop") ∧
    w.calls = [⟨0, 7, s, 0⟩, ⟨0, 8, s, 0⟩] := by
  obtain ⟨gens, hg⟩ := demo_process
  obtain ⟨hs, hc, hh⟩ := hg 0
  obtain ⟨s, hs⟩ := hs 0
  have hc' : ((gens 0).withValues 0).path.callbacks = [7, 8] := hc
  have hh' : ((gens 0).withValues 0).handle = 0 := hh
  have hv : ((gens 0).withValues 0).withValues 0 = (gens 0).withValues 0 := rfl
  refine ⟨gens, _, s, rfl, ?_⟩
  simp [iteration, World.run, World.step, World.set, World.new, tooSoon, hs, hc', hh', hv,
    List.replicate, conclude_stop]

end Trajopt.Props
