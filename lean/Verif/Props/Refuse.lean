import Verif.Model.Refuse
import Verif.Props.Exceptions

/-!
# C123 Memory running out during `Generate`

A generation that is refused memory ends with an exception.  Apart from the time of the last round
of callbacks nothing else notices: what every other generation goes through is what it could have
gone through with enough memory, and the one that failed can be repeated.
-/

set_option autoImplicit false

namespace Trajopt.Props

open Spec Builder

variable {D : Type}

/-- C123: a refused allocation does nothing, or it ends the `Generate` call it belongs to.  No other
thread, nor the cancellation flag, nor what has been called changes; the generator keeps its path,
its handle and its problem, up to the values of the variables; the time of the last round of
callbacks changes only if the callbacks of the failed generation were about to be called. -/
theorem C123_only (w : World D) (g : ℕ) (values : ℕ → D) (w' : World D)
    (hw : w' = w.refuse g values) (hne : w' ≠ w) :
    (w'.threads g).phase = .threw ∧
    (∃ v, (w'.threads g).generator = (w.threads g).generator.withValues v) ∧
    (∀ h, h ≠ g → w'.threads h = w.threads h) ∧
    w'.flag = w.flag ∧ w'.clock = w.clock ∧ w'.calls = w.calls ∧ w'.rounds = w.rounds ∧
    (w'.lastFrame = w.lastFrame ∨
      ∃ now, (w.threads g).phase = .passed now ∧ w'.lastFrame = some now) := by
  subst hw
  have same : ∃ v, (w.threads g).generator = (w.threads g).generator.withValues v :=
    ⟨(w.threads g).generator.problem.values, rfl⟩
  unfold World.refuse at hne ⊢
  split at hne
  · rename_i hp
    simp only [set_same]
    exact ⟨trivial, ⟨_, rfl⟩, fun h hh => set_other _ _ hh, rfl, rfl, rfl, rfl, .inl rfl⟩
  · rename_i now hp
    simp only [set_same]
    exact ⟨trivial, same, fun h hh => set_other _ _ hh, rfl, rfl, rfl, rfl, .inr ⟨now, hp, rfl⟩⟩
  · simp only [set_same]
    exact ⟨trivial, same, fun h hh => set_other _ _ hh, rfl, rfl, rfl, rfl, .inl rfl⟩
  · split at hne
    · rename_i hf
      rw [if_pos hf]
      simp only [set_same]
      exact ⟨trivial, same, fun h hh => set_other _ _ hh, rfl, rfl, rfl, rfl, .inl rfl⟩
    · exact absurd rfl hne
  · exact absurd rfl hne

/-- While `Solve` runs, before a solution is made or converted, and when a stopped generation makes
its message, memory can be refused. -/
theorem C123_where (w : World D) (g : ℕ) (values : ℕ → D)
    (hp : (w.threads g).phase = .solving ∨ (∃ now, (w.threads g).phase = .passed now) ∨
      (∃ soln c rest, (w.threads g).phase = .calling soln (c :: rest)) ∨
      ((w.threads g).phase = .polling ∧ w.flag ≠ 0)) :
    ((w.refuse g values).threads g).phase = .threw := by
  rcases hp with hp | ⟨_, hp⟩ | ⟨_, _, _, hp⟩ | ⟨hp, hf⟩
  · simp [World.refuse, hp]
  · simp [World.refuse, hp]
  · simp [World.refuse, hp]
  · simp [World.refuse, hp, hf]

/-- How a step with refused allocations is replaced by steps with enough memory: a refused
allocation of `g` by steps of `g` alone, none of which calls `Generate`. -/
def Instead : MemEvent D → List (Event D) → Prop
  | .plain e, es => es = [e]
  | .refuse g _, es => ∀ e ∈ es, actor e = some g ∧ e ≠ .start g

/-- Is this an allocation of `g` that is refused? -/
def isRefuse (g : ℕ) : MemEvent D → Prop
  | .refuse h _ => h = g
  | .plain _ => False

/-- Two worlds that look the same to all generators but those in `R`. -/
structure Agree (R : ℕ → Prop) (w w' : World D) : Prop where
  flag : w.flag = w'.flag
  last : w.lastFrame = w'.lastFrame
  clock : w.clock = w'.clock
  gen : ∀ g, (w.threads g).generator = (w'.threads g).generator
  sound : ∀ g, Sound (w'.threads g).generator
  phase : ∀ g, (w.threads g).phase = (w'.threads g).phase ∨
    (R g ∧ (w.threads g).phase = .threw ∧ ∃ r, (w'.threads g).phase = .returned r)
  calls : w.calls.Sublist w'.calls
  rounds : w.rounds.Sublist w'.rounds
  own : ∀ h, ¬ R h → callsBy w h = callsBy w' h ∧ roundsBy w h = roundsBy w' h

/-- Both worlds do the same to thread `g`. -/
theorem Agree.both {R : ℕ → Prop} {w w' v v' : World D} (A : Agree R w w') (g : ℕ) (t : Thread D)
    (ht : Sound t.generator) (hv : v.threads = (w.set g t).threads)
    (hv' : v'.threads = (w'.set g t).threads) (hf : v.flag = v'.flag)
    (hl : v.lastFrame = v'.lastFrame) (hc : v.clock = v'.clock) (cs : List (Call D))
    (hcs : v.calls = w.calls ++ cs) (hcs' : v'.calls = w'.calls ++ cs) (rs : List (Round D))
    (hrs : v.rounds = w.rounds ++ rs) (hrs' : v'.rounds = w'.rounds ++ rs) : Agree R v v' where
  flag := hf
  last := hl
  clock := hc
  gen h := by
    rw [hv, hv', set_threads, set_threads]
    split
    · rfl
    · exact A.gen h
  sound h := by
    rw [hv', set_threads]
    split
    · exact ht
    · exact A.sound h
  phase h := by
    rw [hv, hv', set_threads, set_threads]
    split
    · exact .inl rfl
    · exact A.phase h
  calls := by rw [hcs, hcs']; exact A.calls.append (List.Sublist.refl _)
  rounds := by rw [hrs, hrs']; exact A.rounds.append (List.Sublist.refl _)
  own h hh := by
    obtain ⟨h1, h2⟩ := A.own h hh
    unfold callsBy at h1 ⊢
    unfold roundsBy at h2 ⊢
    rw [hcs, hcs', hrs, hrs', List.filter_append, List.filter_append, List.filter_append,
      List.filter_append, h1, h2]
    exact ⟨rfl, rfl⟩

/-- Only the world with enough memory does something, to a generator in `R` whose phases then
are as `Agree` allows. -/
theorem Agree.one {R : ℕ → Prop} {w w' v v' : World D} (A : Agree R w w') (g : ℕ) (hg : R g)
    (t t' : Thread D) (htt : t.generator = t'.generator) (ht : Sound t'.generator)
    (hp : t.phase = .threw) (hp' : t'.phase = .threw ∨ ∃ r, t'.phase = .returned r)
    (hv : v.threads = (w.set g t).threads)
    (hv' : v'.threads = (w'.set g t').threads) (hf : v.flag = v'.flag)
    (hl : v.lastFrame = v'.lastFrame) (hc : v.clock = v'.clock) (cs : List (Call D))
    (hcs : v.calls = w.calls) (hcs' : v'.calls = w'.calls ++ cs) (rs : List (Round D))
    (hrs : v.rounds = w.rounds) (hrs' : v'.rounds = w'.rounds ++ rs)
    (hcg : ∀ c ∈ cs, c.gen = g) (hrg : ∀ c ∈ rs, c.gen = g) : Agree R v v' where
  flag := hf
  last := hl
  clock := hc
  gen h := by
    rw [hv, hv', set_threads, set_threads]
    split
    · exact htt
    · exact A.gen h
  sound h := by
    rw [hv', set_threads]
    split
    · exact ht
    · exact A.sound h
  phase h := by
    rw [hv, hv', set_threads, set_threads]
    split
    · rename_i e
      subst e
      rcases hp' with h' | h'
      · exact .inl (hp.trans h'.symm)
      · exact .inr ⟨hg, hp, h'⟩
    · exact A.phase h
  calls := by rw [hcs, hcs']; exact A.calls.trans (List.sublist_append_left _ _)
  rounds := by rw [hrs, hrs']; exact A.rounds.trans (List.sublist_append_left _ _)
  own h hh := by
    obtain ⟨h1, h2⟩ := A.own h hh
    have hne : ∀ k, k = g → (k == h) = false := by
      rintro k rfl
      simp only [beq_eq_false_iff_ne]
      rintro rfl
      exact hh hg
    unfold callsBy at h1 ⊢
    unfold roundsBy at h2 ⊢
    rw [hcs, hcs', hrs, hrs', List.filter_append, List.filter_append, h1, h2,
      (List.filter_eq_nil_iff (l := cs)).mpr (fun c hc => by simp [hne _ (hcg c hc)]),
      (List.filter_eq_nil_iff (l := rs)).mpr (fun c hc => by simp [hne _ (hrg c hc)])]
    exact ⟨(List.append_nil _).symm, (List.append_nil _).symm⟩

theorem Agree.step {R : ℕ → Prop} {w w' : World D} (A : Agree R w w') (msg : Exit → String)
    (e : Event D) : Agree R (w.step msg e) (w'.step msg e) := by
  have thr : ∀ g, (w.threads g).phase = (w'.threads g).phase → w.threads g = w'.threads g := by
    intro g h
    have := A.gen g
    cases h1 : w.threads g
    cases h2 : w'.threads g
    rw [h1, h2] at h this
    simp_all
  -- a step of `g` that does nothing once `Generate` has ended
  have ended : ∀ g, (∀ (v : World D), (v.threads g).phase = .threw ∨
      (∃ r, (v.threads g).phase = .returned r) → v.step msg e = v) →
      (w.threads g = w'.threads g → Agree R (w.step msg e) (w'.step msg e)) →
      Agree R (w.step msg e) (w'.step msg e) := by
    intro g h1 h2
    rcases A.phase g with hp | ⟨-, hp, r, hp'⟩
    · exact h2 (thr g hp)
    · rw [h1 w (.inl hp), h1 w' (.inr ⟨r, hp'⟩)]
      exact A
  cases e with
  | tick ns =>
    exact ⟨A.flag, A.last, by simp [World.step, A.clock], A.gen, A.sound, A.phase, A.calls,
      A.rounds, A.own⟩
  | cancel =>
    exact ⟨rfl, A.last, A.clock, A.gen, A.sound, A.phase, A.calls, A.rounds, A.own⟩
  | start g =>
    have hgo : ∀ v : World D, ((v.threads g).phase = .idle ∨ (v.threads g).phase = .threw ∨
        ∃ r, (v.threads g).phase = .returned r) → v.step msg (.start g) =
          { v.set g { v.threads g with phase := .solving } with flag := 0 } := by
      intro v hv
      rcases hv with hv | hv | ⟨r, hv⟩ <;> simp only [World.step, hv]
    have hgo' : ((w.threads g).phase = .idle ∨ (w.threads g).phase = .threw ∨
        ∃ r, (w.threads g).phase = .returned r) → ((w'.threads g).phase = .idle ∨
        (w'.threads g).phase = .threw ∨ ∃ r, (w'.threads g).phase = .returned r) →
        Agree R (w.step msg (.start g)) (w'.step msg (.start g)) := by
      intro h h'
      rw [hgo w h, hgo w' h']
      dsimp only
      rw [A.gen g]
      exact A.both g ⟨(w'.threads g).generator, .solving⟩ (A.sound g) rfl rfl rfl A.last A.clock []
        (by simp) (by simp) [] (by simp) (by simp)
    rcases A.phase g with hp | ⟨-, hp, r, hp'⟩
    · by_cases h : (w.threads g).phase = .idle ∨ (w.threads g).phase = .threw ∨
        ∃ r, (w.threads g).phase = .returned r
      · exact hgo' h (by rwa [← hp])
      · have hno : ∀ v : World D, (v.threads g).phase = (w.threads g).phase →
            v.step msg (.start g) = v := by
          intro v hv
          rw [← hv] at h
          cases hq : (v.threads g).phase <;> simp only [World.step, hq] <;>
            exact absurd (by rw [hq]; simp) h
        rw [hno w rfl, hno w' hp.symm]
        exact A
    · exact hgo' (.inr (.inl hp)) (.inr (.inr ⟨r, hp'⟩))
  | iterate g values =>
    refine ended g (by rintro v (h | ⟨r, h⟩) <;> simp only [World.step, h]) fun ht => ?_
    cases hq : (w'.threads g).phase <;> simp only [World.step, ht, hq] <;> first
      | exact A
      | exact A.both g ⟨(w'.threads g).generator.withValues values, .entered⟩
              ((A.sound g).withValues values) rfl rfl A.flag
          (by simp only [A.last, A.clock]) A.clock [] (by simp) (by simp) [] (by simp) (by simp)
  | readClock g =>
    refine ended g (by rintro v (h | ⟨r, h⟩) <;> simp only [World.step, h]) fun ht => ?_
    cases hq : (w'.threads g).phase <;> simp only [World.step, ht, hq] <;> first
      | exact A
      | (rw [A.clock]
         exact A.both g ⟨(w'.threads g).generator, .clocked w'.clock⟩
              (A.sound g) rfl rfl A.flag A.last A.clock [] (by simp) (by simp) []
          (by simp) (by simp))
  | checkRate g =>
    refine ended g (by rintro v (h | ⟨r, h⟩) <;> simp only [World.step, h]) fun ht => ?_
    cases hq : (w'.threads g).phase <;> simp only [World.step, ht, hq] <;> first
      | exact A
      | (rw [A.last]
         split
         · rename_i now last h1 h2
           exact A.both g ⟨(w'.threads g).generator, if tooSoon now last then .polling else .passed now⟩
              (A.sound g) rfl rfl A.flag A.last A.clock [] (by simp) (by simp) []
              (by simp) (by simp)
         · exact A)
  | stamp g =>
    refine ended g (by rintro v (h | ⟨r, h⟩) <;> simp only [World.step, h]) fun ht => ?_
    cases hq : (w'.threads g).phase <;> simp only [World.step, ht, hq] <;> first
      | exact A
      | (obtain ⟨soln, hs⟩ := (A.sound g).construct
         rw [hs]
         exact A.both g ⟨(w'.threads g).generator, .calling soln (w'.threads g).generator.path.callbacks⟩
              (A.sound g) rfl rfl A.flag rfl A.clock []
          (by simp) (by simp) _ rfl rfl)
  | call g edit =>
    refine ended g (by rintro v (h | ⟨r, h⟩) <;> simp only [World.step, h]) fun ht => ?_
    cases hq : (w'.threads g).phase <;> simp only [World.step, ht, hq] <;> try exact A
    rename_i soln rest
    cases rest with
    | nil =>
      exact A.both g ⟨(w'.threads g).generator, .polling⟩
              (A.sound g) rfl rfl A.flag A.last A.clock [] (by simp) (by simp) [] (by simp)
        (by simp)
    | cons c rest =>
      exact A.both g ⟨(w'.threads g).generator, .calling (edit soln) rest⟩
              (A.sound g) rfl rfl A.flag A.last A.clock _ rfl
        rfl [] (by simp) (by simp)
  | throw g =>
    refine ended g (by rintro v (h | ⟨r, h⟩) <;> simp only [World.step, h]) fun ht => ?_
    cases hq : (w'.threads g).phase <;> simp only [World.step, ht, hq] <;> try exact A
    rename_i soln rest
    cases rest with
    | nil => exact A
    | cons c rest =>
      exact A.both g ⟨(w'.threads g).generator, .threw⟩
              (A.sound g) rfl rfl A.flag A.last A.clock _ rfl
        rfl [] (by simp) (by simp)
  | poll g =>
    refine ended g (by rintro v (h | ⟨r, h⟩) <;> simp only [World.step, h]) fun ht => ?_
    cases hq : (w'.threads g).phase <;> simp only [World.step, ht, hq] <;> first
      | exact A
      | (rw [A.flag, conclude_stop]
         split
         · exact A.both g ⟨(w'.threads g).generator, .returned (.error (msg .callbackRequestedStop))⟩
              (A.sound g) rfl rfl A.flag A.last A.clock [] (by simp) (by simp) []
              (by simp) (by simp)
         · exact A.both g ⟨(w'.threads g).generator, .solving⟩
              (A.sound g) rfl rfl A.flag A.last A.clock [] (by simp) (by simp) []
              (by simp) (by simp))
  | finish g code values =>
    refine ended g (by rintro v (h | ⟨r, h⟩) <;> simp only [World.step, h]) fun ht => ?_
    cases hq : (w'.threads g).phase <;> simp only [World.step, ht, hq] <;> first
      | exact A
      | (split
         · exact A.both g ⟨(w'.threads g).generator.withValues values, _⟩ ((A.sound g).withValues values) rfl rfl A.flag A.last A.clock [] (by simp)
            (by simp) [] (by simp) (by simp)
         · exact A.both g ⟨(w'.threads g).generator.withValues values, _⟩ ((A.sound g).withValues values) rfl rfl A.flag A.last A.clock [] (by simp)
            (by simp) [] (by simp) (by simp))

/-- A refused allocation is not told apart by the other generators from something that can happen
with enough memory. -/
theorem Agree.refuse {R : ℕ → Prop} {w w' : World D} (A : Agree R w w') (msg : Exit → String)
    (g : ℕ) (hg : R g) (values : ℕ → D) :
    ∃ es, Instead (.refuse g values) es ∧ Agree R (w.refuse g values) (w'.run msg es) := by
  have none : w.refuse g values = w → ∃ es, Instead (.refuse g values) es ∧
      Agree R (w.refuse g values) (w'.run msg es) := by
    intro h
    rw [h]
    exact ⟨[], by simp [Instead], A⟩
  have other : ∀ code values, code < 0 → ((w'.threads g).generator.withValues values).conclude msg
      (.other code) = .ok (.error (msg (.other code))) := by
    intro code values h
    simp [Generator.conclude, Exit.toInt, h]
  rcases A.phase g with hp | ⟨-, hp, -, -⟩
  case inr => exact none (by simp only [World.refuse, hp])
  cases hq : (w.threads g).phase with
  | idle => exact none (by simp only [World.refuse, hq])
  | entered => exact none (by simp only [World.refuse, hq])
  | clocked now => exact none (by simp only [World.refuse, hq])
  | returned r => exact none (by simp only [World.refuse, hq])
  | threw => exact none (by simp only [World.refuse, hq])
  | crashed f => exact none (by simp only [World.refuse, hq])
  | solving =>
    rw [hq] at hp
    refine ⟨[.finish g (-1) values], by simp [Instead, actor], ?_⟩
    simp only [run_cons, run_nil, World.step, ← hp, other (-1) values (by decide), World.refuse, hq,
      A.gen g]
    exact A.one g hg ⟨(w'.threads g).generator.withValues values, .threw⟩
      ⟨(w'.threads g).generator.withValues values, .returned (.error (msg (.other (-1))))⟩ rfl
      ((A.sound g).withValues values) rfl (.inr ⟨_, rfl⟩) rfl rfl A.flag A.last A.clock [] rfl
      (by simp) [] rfl (by simp) (by simp) (by simp)
  | polling =>
    rw [hq] at hp
    by_cases hf : w.flag = 0
    · exact none (by simp [World.refuse, hq, hf])
    · refine ⟨[.poll g], by simp [Instead, actor], ?_⟩
      simp only [run_cons, run_nil, World.step, ← hp, conclude_stop, World.refuse, hq, A.gen g,
        if_pos hf, if_pos (A.flag ▸ hf : w'.flag ≠ 0), ne_eq]
      exact A.one g hg ⟨(w'.threads g).generator, .threw⟩
        ⟨(w'.threads g).generator, .returned (.error (msg .callbackRequestedStop))⟩ rfl
        (A.sound g) rfl (.inr ⟨_, rfl⟩) rfl rfl A.flag A.last A.clock [] rfl
        (by simp) [] rfl (by simp) (by simp) (by simp)
  | calling soln rest =>
    rw [hq] at hp
    cases rest with
    | nil => exact none (by simp only [World.refuse, hq])
    | cons c rest =>
      refine ⟨[.throw g], by simp [Instead, actor], ?_⟩
      simp only [run_cons, run_nil, World.step, ← hp, World.refuse, hq, A.gen g]
      exact A.one g hg ⟨(w'.threads g).generator, .threw⟩ ⟨(w'.threads g).generator, .threw⟩ rfl
        (A.sound g) rfl (.inl rfl) rfl rfl A.flag A.last A.clock
        [⟨g, c, soln, (w'.threads g).generator.handle⟩] rfl rfl [] rfl (by simp) (by simp) (by simp)
  | passed now =>
    rw [hq] at hp
    obtain ⟨soln, hs⟩ := (A.sound g).construct
    cases hc : (w'.threads g).generator.path.callbacks with
    | cons c rest =>
      refine ⟨[.stamp g, .throw g], by simp [Instead, actor], ?_⟩
      simp only [run_cons, run_nil, World.step, ← hp, hs, hc, set_same, World.refuse, hq, A.gen g]
      refine A.one g hg ⟨(w'.threads g).generator, .threw⟩ ⟨(w'.threads g).generator, .threw⟩ rfl
        (A.sound g) rfl (.inl rfl) rfl ?_ A.flag rfl A.clock
        [⟨g, c, soln, (w'.threads g).generator.handle⟩] rfl rfl [⟨now, g, soln⟩] rfl rfl (by simp)
        (by simp)
      funext h
      simp only [World.set]
      split <;> rfl
    | nil =>
      by_cases hf : w'.flag = 0
      · refine ⟨[.stamp g, .call g id, .poll g,
          .finish g (-1) (w'.threads g).generator.problem.values], by simp [Instead, actor], ?_⟩
        simp only [run_cons, run_nil, World.step, ← hp, hs, hc, set_same, World.refuse, hq, A.gen g,
          set_flag, hf, ne_eq, not_true, if_false, other (-1) _ (by decide : (-1 : ℤ) < 0)]
        refine A.one g hg ⟨(w'.threads g).generator, .threw⟩
          ⟨(w'.threads g).generator, .returned (.error (msg (.other (-1))))⟩ rfl
          (A.sound g) rfl (.inr ⟨_, rfl⟩) rfl ?_ ?_ rfl A.clock [] rfl (by simp) [⟨now, g, soln⟩] rfl
          rfl (by simp) (by simp)
        · funext h
          simp only [World.set]
          split <;> rfl
        · exact A.flag.trans hf
      · refine ⟨[.stamp g, .call g id, .poll g], by simp [Instead, actor], ?_⟩
        simp only [run_cons, run_nil, World.step, ← hp, hs, hc, set_same, World.refuse, hq, A.gen g,
          set_flag, ne_eq, hf, not_false_eq_true, if_true, conclude_stop]
        refine A.one g hg ⟨(w'.threads g).generator, .threw⟩
          ⟨(w'.threads g).generator, .returned (.error (msg .callbackRequestedStop))⟩ rfl
          (A.sound g) rfl (.inr ⟨_, rfl⟩) rfl ?_ A.flag rfl A.clock [] rfl (by simp)
          [⟨now, g, soln⟩] rfl rfl (by simp) (by simp)
        funext h
        simp only [World.set]
        split <;> rfl

/-- C123: whatever allocations are refused, the same could have happened, for all that the cancellation
flag, the clock, the time of the last round and the generations that were not refused memory show,
with enough memory, the failed generations having ended in another way.  No callback is called and no
round begun that would not have been. -/
theorem C123_others (msg : Exit → String) (gens : ℕ → Generator D) (hg : ∀ g, Sound (gens g))
    (rs : List (MemEvent D)) (w : World D) (hw : w = (World.new gens).memRun msg rs) :
    ∃ (parts : List (List (Event D))) (w' : World D), List.Forall₂ Instead rs parts ∧
      w' = (World.new gens).run msg parts.flatten ∧
      w.flag = w'.flag ∧ w.lastFrame = w'.lastFrame ∧ w.clock = w'.clock ∧
      w.calls.Sublist w'.calls ∧ w.rounds.Sublist w'.rounds ∧
      (∀ g, (w.threads g).generator = (w'.threads g).generator ∧
        ((w.threads g).phase = (w'.threads g).phase ∨ ((∃ r ∈ rs, isRefuse g r) ∧
          (w.threads g).phase = .threw ∧ ∃ r, (w'.threads g).phase = .returned r))) ∧
      (∀ h, (∀ r ∈ rs, ¬ isRefuse h r) → w.threads h = w'.threads h ∧ callsBy w h = callsBy w' h ∧
        roundsBy w h = roundsBy w' h) := by
  subst hw
  suffices key : ∀ (R : ℕ → Prop) (rs : List (MemEvent D)) (w w' : World D),
      (∀ g, (∃ r ∈ rs, isRefuse g r) → R g) → Agree R w w' →
      ∃ parts, List.Forall₂ Instead rs parts ∧
        Agree R (w.memRun msg rs) (w'.run msg parts.flatten) by
    obtain ⟨parts, h, A⟩ := key (fun g => ∃ r ∈ rs, isRefuse g r) rs (World.new gens) (World.new gens)
      (fun _ h => h) ⟨rfl, rfl, rfl, fun _ => rfl, hg, fun _ => .inl rfl, List.Sublist.refl _,
        List.Sublist.refl _, fun _ _ => ⟨rfl, rfl⟩⟩
    refine ⟨parts, _, h, rfl, A.flag, A.last, A.clock, A.calls, A.rounds,
      fun g => ⟨A.gen g, A.phase g⟩, fun h hh => ?_⟩
    have hR : ¬ ∃ r ∈ rs, isRefuse h r := fun ⟨r, hr, e⟩ => hh r hr e
    refine ⟨?_, A.own h hR⟩
    have h1 := A.gen h
    have h2 := (A.phase h).resolve_right fun c => hR c.1
    cases h3 : ((World.new gens).memRun msg rs).threads h
    cases h4 : ((World.new gens).run msg parts.flatten).threads h
    rw [h3, h4] at h1 h2
    simp_all
  intro R rs
  induction rs with
  | nil => exact fun w w' _ A => ⟨[], .nil, A⟩
  | cons r rs ih =>
    intro w w' hR A
    have hR' : ∀ g, (∃ r ∈ rs, isRefuse g r) → R g :=
      fun g ⟨r, hr, e⟩ => hR g ⟨r, List.mem_cons_of_mem _ hr, e⟩
    cases r with
    | plain e =>
      obtain ⟨parts, h, B⟩ := ih _ _ hR' (A.step msg e)
      exact ⟨[e] :: parts, .cons rfl h, by rw [List.flatten_cons, run_append]; exact B⟩
    | refuse g values =>
      obtain ⟨es, he, B⟩ := A.refuse msg g (hR g ⟨_, List.mem_cons_self, rfl⟩) values
      obtain ⟨parts, h, B⟩ := ih _ _ hR' B
      exact ⟨es :: parts, .cons he h, by rw [List.flatten_cons, run_append]; exact B⟩

/-- C123: refused allocations lead to no undefined behaviour. -/
theorem C123_never_crashes (msg : Exit → String) (gens : ℕ → Generator D)
    (hg : ∀ g, Sound (gens g)) (rs : List (MemEvent D)) (g : ℕ) (f : Fault) :
    (((World.new gens).memRun msg rs).threads g).phase ≠ .crashed f := by
  obtain ⟨parts, w', -, rfl, -, -, -, -, -, h, -⟩ := C123_others msg gens hg rs _ rfl
  intro hf
  rcases (h g).2 with e | ⟨-, e, -⟩
  · exact C47_never_crashes msg gens hg parts.flatten g f (e ▸ hf)
  · rw [hf] at e
    cases e

/-- C123: a generation that was refused memory can be repeated, and returns the solution the solver
then finds. -/
theorem C123_again (msg : Exit → String) (w : World D) (g : ℕ) (values : ℕ → D)
    (hs : Sound (w.threads g).generator)
    (hp : ((w.refuse g values).threads g).phase = .threw) (code : ℤ) (hc : 0 ≤ code)
    (u : ℕ → D) :
    ∃ s, ((w.threads g).generator.withValues u).constructSwerveSolution = .ok s ∧
      (((w.refuse g values).run msg [.start g, .finish g code u]).threads g).phase =
        .returned (.ok s) := by
  obtain ⟨s, h⟩ := hs u
  refine ⟨s, h, ?_⟩
  have hgen : ((w.refuse g values).threads g).generator.withValues u =
      (w.threads g).generator.withValues u := by
    by_cases hne : w.refuse g values = w
    · rw [hne]
    · obtain ⟨-, ⟨v, hv⟩, -⟩ := C123_only w g values _ rfl hne
      rw [hv]
      rfl
  simp only [run_cons, run_nil, World.step, hp, set_same, hgen]
  simp [Generator.conclude, Exit.toInt, h, not_lt.mpr hc]

/-- C123: the time of the last round is the exception.  A generation whose callbacks were about to be
called, and that is refused the memory for it, has used up the sixtieth of a second: another generation
then does not report its progress, which it would have done, and no callback has been called at
all. -/
theorem C123_frame_refuted (msg : Exit → String) (gens : ℕ → Generator D) (v : ℕ → D) :
    ∃ before after : List (Event D),
      let w := (World.new gens).memRun msg
        (before.map .plain ++ [.refuse 0 v] ++ after.map .plain)
      let w' := (World.new gens).run msg (before ++ after)
      (w.threads 1).phase = .polling ∧ w.rounds = [] ∧
      (w'.threads 1).phase = .passed (10 ^ 9) ∧ w'.rounds = [] := by
  refine ⟨[.start 0, .start 1, .iterate 0 v, .tick (10 ^ 9), .readClock 0, .checkRate 0],
    [.iterate 1 v, .readClock 1, .checkRate 1], ?_⟩
  simp [World.memRun, World.memStep, World.refuse, World.run, World.step, World.set, World.new,
    tooSoon]

/-- In the process of `demo_process`, generator 0 is refused memory for its first report, generator 1
goes on and returns, and so does generator 0 when it is called again. -/
example : ∃ (gens : ℕ → Generator ℝ) (w : World ℝ) (s s' : SwerveSolution ℝ),
    (∀ g, Sound (gens g)) ∧
    w = (World.new gens).memRun (fun _ => "stop") ([.plain (.start 0), .plain (.start 1),
      .plain (.iterate 0 0), .plain (.tick (10 ^ 9)), .plain (.readClock 0), .plain (.checkRate 0),
      .refuse 0 0, .plain (.finish 1 0 1), .plain (.start 0), .plain (.finish 0 0 0)]) ∧
    w.calls = [] ∧ w.lastFrame = some (10 ^ 9) ∧
    (w.threads 1).phase = .returned (.ok s) ∧
    ((gens 1).withValues 1).constructSwerveSolution = .ok s ∧
    (w.threads 0).phase = .returned (.ok s') ∧
    ((gens 0).withValues 0).constructSwerveSolution = .ok s' := by
  obtain ⟨gens, hg⟩ := demo_process
  obtain ⟨s, hs⟩ := (hg 1).1 1
  obtain ⟨s', hs'⟩ := (hg 0).1 0
  have hv : ((gens 0).withValues 0).withValues 0 = (gens 0).withValues 0 := rfl
  refine ⟨gens, _, s, s', fun g => (hg g).1, rfl, ?_⟩
  simp [World.memRun, World.memStep, World.refuse, World.step, World.set, World.new,
    tooSoon, hs, hs', hv, Generator.conclude, Exit.toInt]

end Trajopt.Props
