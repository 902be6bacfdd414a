import Verif.Model.Runtime
import Mathlib.Data.Int.Notation
import Mathlib.Data.Nat.Notation
import Mathlib.Data.List.Induction
import Mathlib.Tactic.Common

/-! # Schedules -/

set_option autoImplicit false

namespace Trajopt

variable {D : Type}

theorem run_nil (msg : Exit → String) (w : World D) : w.run msg [] = w := rfl

theorem run_cons (msg : Exit → String) (w : World D) (e : Event D) (es : List (Event D)) :
    w.run msg (e :: es) = (w.step msg e).run msg es := rfl

theorem run_append (msg : Exit → String) (w : World D) (es es' : List (Event D)) :
    w.run msg (es ++ es') = (w.run msg es).run msg es' := by
  simp only [World.run, List.foldl_append]

theorem run_concat (msg : Exit → String) (w : World D) (es : List (Event D)) (e : Event D) :
    w.run msg (es ++ [e]) = (w.run msg es).step msg e := by
  rw [run_append]; rfl

@[simp] theorem set_same (w : World D) (g : ℕ) (t : Thread D) : (w.set g t).threads g = t := by
  simp [World.set]

theorem set_other (w : World D) {g h : ℕ} (t : Thread D) (hne : h ≠ g) :
    (w.set g t).threads h = w.threads h := by
  simp [World.set, hne]

theorem set_threads (w : World D) (g h : ℕ) (t : Thread D) :
    (w.set g t).threads h = if h = g then t else w.threads h := rfl

@[simp] theorem set_flag (w : World D) (g : ℕ) (t : Thread D) : (w.set g t).flag = w.flag := rfl
@[simp] theorem set_clock (w : World D) (g : ℕ) (t : Thread D) : (w.set g t).clock = w.clock := rfl
@[simp] theorem set_last (w : World D) (g : ℕ) (t : Thread D) :
    (w.set g t).lastFrame = w.lastFrame := rfl
@[simp] theorem set_calls (w : World D) (g : ℕ) (t : Thread D) : (w.set g t).calls = w.calls := rfl
@[simp] theorem set_rounds (w : World D) (g : ℕ) (t : Thread D) :
    (w.set g t).rounds = w.rounds := rfl


/-- The ways the world can change. -/
inductive Step (msg : Exit → String) (w : World D) : Event D → World D → Prop
  /-- nothing happens -/
  | stutter (e : Event D) : Step msg w e w
  | tick (ns : ℕ) : Step msg w (.tick ns) { w with clock := w.clock + ns }
  | cancel : Step msg w .cancel { w with flag := 1 }
  | start (g : ℕ) (h : (w.threads g).phase = .idle ∨ (∃ r, (w.threads g).phase = .returned r) ∨
      (w.threads g).phase = .threw) :
    Step msg w (.start g) { w.set g { w.threads g with phase := .solving } with flag := 0 }
  | iterate (g : ℕ) (values : ℕ → D) (h : (w.threads g).phase = .solving) :
    Step msg w (.iterate g values)
      { w.set g { generator := (w.threads g).generator.withValues values, phase := .entered } with
        lastFrame := some (w.lastFrame.getD w.clock) }
  | readClock (g : ℕ) (h : (w.threads g).phase = .entered) :
    Step msg w (.readClock g) (w.set g { w.threads g with phase := .clocked w.clock })
  | soon (g now last : ℕ) (h : (w.threads g).phase = .clocked now) (hl : w.lastFrame = some last)
      (ht : 60 * ((now : ℤ) - last) < 10 ^ 9) :
    Step msg w (.checkRate g) (w.set g { w.threads g with phase := .polling })
  | pass (g now last : ℕ) (h : (w.threads g).phase = .clocked now) (hl : w.lastFrame = some last)
      (ht : 10 ^ 9 ≤ 60 * ((now : ℤ) - last)) :
    Step msg w (.checkRate g) (w.set g { w.threads g with phase := .passed now })
  | stamp (g now : ℕ) (soln : SwerveSolution D) (h : (w.threads g).phase = .passed now)
      (hs : (w.threads g).generator.constructSwerveSolution = .ok soln) :
    Step msg w (.stamp g)
      { w.set g { w.threads g with
          phase := .calling soln (w.threads g).generator.path.callbacks } with
        lastFrame := some now
        rounds := w.rounds ++ [⟨now, g, soln⟩] }
  | stampCrash (g now : ℕ) (f : Fault) (h : (w.threads g).phase = .passed now)
      (hs : (w.threads g).generator.constructSwerveSolution = .error f) :
    Step msg w (.stamp g)
      { w.set g { w.threads g with phase := .crashed f } with lastFrame := some now }
  | call (g : ℕ) (edit : SwerveSolution D → SwerveSolution D) (soln : SwerveSolution D) (c : ℕ)
      (rest : List ℕ) (h : (w.threads g).phase = .calling soln (c :: rest)) :
    Step msg w (.call g edit)
      { w.set g { w.threads g with phase := .calling (edit soln) rest } with
        calls := w.calls ++ [⟨g, c, soln, (w.threads g).generator.handle⟩] }
  | called (g : ℕ) (edit : SwerveSolution D → SwerveSolution D) (soln : SwerveSolution D)
      (h : (w.threads g).phase = .calling soln []) :
    Step msg w (.call g edit) (w.set g { w.threads g with phase := .polling })
  | throw (g : ℕ) (soln : SwerveSolution D) (c : ℕ) (rest : List ℕ)
      (h : (w.threads g).phase = .calling soln (c :: rest)) :
    Step msg w (.throw g)
      { w.set g { w.threads g with phase := .threw } with
        calls := w.calls ++ [⟨g, c, soln, (w.threads g).generator.handle⟩] }
  | stop (g : ℕ) (h : (w.threads g).phase = .polling) (hf : w.flag ≠ 0) :
    Step msg w (.poll g) (w.set g { w.threads g with
      phase := .returned (.error (msg .callbackRequestedStop)) })
  | goOn (g : ℕ) (h : (w.threads g).phase = .polling) (hf : w.flag = 0) :
    Step msg w (.poll g) (w.set g { w.threads g with phase := .solving })
  | finish (g : ℕ) (code : ℤ) (values : ℕ → D) (r : GenResult D)
      (h : (w.threads g).phase = .solving)
      (hr : ((w.threads g).generator.withValues values).conclude msg (.other code) = .ok r) :
    Step msg w (.finish g code values)
      (w.set g { generator := (w.threads g).generator.withValues values, phase := .returned r })
  | finishCrash (g : ℕ) (code : ℤ) (values : ℕ → D) (f : Fault)
      (h : (w.threads g).phase = .solving)
      (hr : ((w.threads g).generator.withValues values).conclude msg (.other code) = .error f) :
    Step msg w (.finish g code values)
      (w.set g { generator := (w.threads g).generator.withValues values, phase := .crashed f })

theorem conclude_stop (msg : Exit → String) (g : Generator D) :
    g.conclude msg .callbackRequestedStop = .ok (.error (msg .callbackRequestedStop)) := by
  simp [Generator.conclude]

theorem step_spec (msg : Exit → String) (w : World D) (e : Event D) : Step msg w e (w.step msg e) := by
  cases e with
  | tick ns => exact .tick ns
  | cancel => exact .cancel
  | start g =>
    cases hp : (w.threads g).phase <;> simp only [World.step, hp] <;> first
      | exact .stutter _
      | exact .start g (.inl hp)
      | exact .start g (.inr (.inl ⟨_, hp⟩))
      | exact .start g (.inr (.inr hp))
  | iterate g values =>
    cases hp : (w.threads g).phase <;> simp only [World.step, hp] <;> first
      | exact .stutter _
      | (have := Step.iterate (msg := msg) (w := w) g values hp
         cases hl : w.lastFrame <;> rw [hl] at this <;> exact this)
  | readClock g =>
    cases hp : (w.threads g).phase <;> simp only [World.step, hp] <;> first
      | exact .stutter _
      | exact .readClock g hp
  | checkRate g =>
    cases hp : (w.threads g).phase <;> cases hl : w.lastFrame <;> simp only [World.step, hp, hl] <;>
      first
      | exact .stutter _
      | (simp only [tooSoon, decide_eq_true_eq]
         split
         · exact .soon g _ _ hp hl ‹_›
         · exact .pass g _ _ hp hl (by omega))
  | stamp g =>
    cases hp : (w.threads g).phase <;> simp only [World.step, hp] <;> first
      | exact .stutter _
      | (split
         · exact .stamp g _ _ hp ‹_›
         · exact .stampCrash g _ _ hp ‹_›)
  | call g edit =>
    cases hp : (w.threads g).phase with
    | calling soln rest =>
      cases rest with
      | nil => simp only [World.step, hp]; exact .called g edit _ hp
      | cons c rest => simp only [World.step, hp]; exact .call g edit _ _ _ hp
    | _ => simp only [World.step, hp]; exact .stutter _
  | throw g =>
    cases hp : (w.threads g).phase with
    | calling soln rest =>
      cases rest with
      | nil => simp only [World.step, hp]; exact .stutter _
      | cons c rest => simp only [World.step, hp]; exact .throw g _ _ _ hp
    | _ => simp only [World.step, hp]; exact .stutter _
  | poll g =>
    cases hp : (w.threads g).phase <;> simp only [World.step, hp, conclude_stop] <;> first
      | exact .stutter _
      | (split
         · exact .stop g hp ‹_›
         · exact .goOn g hp (by omega))
  | finish g code values =>
    cases hp : (w.threads g).phase <;> simp only [World.step, hp] <;> first
      | exact .stutter _
      | (split
         · exact .finish g code values _ hp ‹_›
         · exact .finishCrash g code values _ hp ‹_›)

/-- Invariants of all schedules from `w`; `P es w` may mention what has happened so far. -/
theorem run_invariant {msg : Exit → String} {P : List (Event D) → World D → Prop} {w : World D}
    {es : List (Event D)} (h0 : P [] w)
    (hstep : ∀ pre e w' w'', e ∈ es → P pre w' → Step msg w' e w'' → P (pre ++ [e]) w'') :
    P es (w.run msg es) := by
  suffices h : ∀ pre post, es = pre ++ post → P pre (w.run msg pre) from h es [] (by simp)
  intro pre
  induction pre using List.reverseRecOn with
  | nil => intro _ _; exact h0
  | append_singleton pre e ih =>
    intro post hes
    rw [run_concat]
    exact hstep pre e _ _ (by rw [hes]; simp) (ih (e :: post) (by simp [hes])) (step_spec _ _ _)

end Trajopt
