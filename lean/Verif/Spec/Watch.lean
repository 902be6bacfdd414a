import Verif.Spec.Builder
import Verif.Model.Generator
import Verif.Model.Refuse

/-!
# Specification for C127: watching
-/

set_option autoImplicit false

namespace Trajopt.Spec

variable {D : Type}

/-- The call registers a callback. -/
def Watches : Op D → Bool
  | .addIntermediateCallback _ => true
  | _ => false

/-- The same calls in the same order, apart from those that register callbacks. -/
def SameUnwatched (ops ops' : List (Op D)) : Prop :=
  ops.filter (fun op => !Watches op) = ops'.filter (fun op => !Watches op)

/-- The constructors fail alike, or make generators that have the same variables, start values, constraints and cost. -/
def SameTask (r r' : Res (Generator D)) : Prop :=
  match r, r' with
  | .error e, .error e' => e' = e
  | .ok g, .ok g' => g'.problem = g.problem ∧ g'.vars = g.vars ∧ g'.N = g.N
  | _, _ => False

/-- The same events, except that callbacks change the solutions that they get differently. -/
inductive SameEvent : Event D → Event D → Prop
  | same (e : Event D) : SameEvent e e
  | call (g : Nat) (edit edit' : SwerveSolution D → SwerveSolution D) : SameEvent (.call g edit) (.call g edit')

/-- Event for event. -/
inductive SameEvents : List (Event D) → List (Event D) → Prop
  | nil : SameEvents [] []
  | cons {e e' : Event D} {es es' : List (Event D)} (h : SameEvent e e') (hs : SameEvents es es') :
      SameEvents (e :: es) (e' :: es')

/-- Also where memory runs out. -/
inductive SameMemEvents : List (MemEvent D) → List (MemEvent D) → Prop
  | nil : SameMemEvents [] []
  | plain {e e' : Event D} {rs rs' : List (MemEvent D)} (h : SameEvent e e') (hs : SameMemEvents rs rs') :
      SameMemEvents (.plain e :: rs) (.plain e' :: rs')
  | refuse (g : Nat) (values : Nat → D) {rs rs' : List (MemEvent D)} (hs : SameMemEvents rs rs') :
      SameMemEvents (.refuse g values :: rs) (.refuse g values :: rs')

/-- All the same but what callbacks were given. -/
structure SameOutcome (w w' : World D) : Prop where
  flag : w'.flag = w.flag
  clock : w'.clock = w.clock
  lastFrame : w'.lastFrame = w.lastFrame
  /-- when progress was reported, and the solutions constructed for that -/
  rounds : w'.rounds = w.rounds
  /-- which callbacks were called, in which order and with which handles -/
  calls : w'.calls.map (fun c => (c.gen, c.callback, c.handle)) = w.calls.map (fun c => (c.gen, c.callback, c.handle))
  generators : ∀ g, (w'.threads g).generator = (w.threads g).generator
  returned : ∀ g r, (w'.threads g).phase = .returned r ↔ (w.threads g).phase = .returned r
  threw : ∀ g, (w'.threads g).phase = .threw ↔ (w.threads g).phase = .threw
  crashed : ∀ g f, (w'.threads g).phase = .crashed f ↔ (w.threads g).phase = .crashed f

end Trajopt.Spec
