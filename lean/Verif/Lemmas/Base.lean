import Verif.Model.Base
import Mathlib.Tactic.Common
import Mathlib.Data.List.Forall2

/-! Helper lemmas about the machine-level base. -/

set_option autoImplicit false

namespace Trajopt

variable {α β : Type}

theorem vat_ok {l : List α} {i : Nat} (h : i < l.length) : vat l i = .ok l[i] := by
  simp [vat, h]

theorem vat_error {l : List α} {i : Nat} (h : l.length ≤ i) : vat l i = .error .outOfRange := by
  simp [vat, h]

theorem vat_eq_ok {l : List α} {i : Nat} {a : α} : vat l i = .ok a ↔ l[i]? = some a := by
  unfold vat; split <;> simp_all

theorem vidx_ok {l : List α} {i : Nat} (h : i < l.length) : vidx l i = .ok l[i] := by
  simp [vidx, h]

theorem vidx_error {l : List α} {i : Nat} (h : l.length ≤ i) : vidx l i = .error .ub := by
  simp [vidx, h]

theorem vidx_eq_ok {l : List α} {i : Nat} {a : α} : vidx l i = .ok a ↔ l[i]? = some a := by
  unfold vidx; split <;> simp_all

theorem wadd_eq {a b : Nat} (h : a + b < 2 ^ 64) : wadd a b = a + b := Nat.mod_eq_of_lt h

theorem wsub_eq {a b : Nat} (ha : a < 2 ^ 64) (h : b ≤ a) : wsub a b = a - b := by
  unfold wsub; omega

@[simp] theorem Except.ok_bind {ε : Type} (a : α) (f : α → Except ε β) :
    (Except.ok a >>= f) = f a := rfl

@[simp] theorem Except.error_bind {ε : Type} (e : ε) (f : α → Except ε β) :
    ((Except.error e : Except ε α) >>= f) = .error e := rfl

theorem Except.bind_eq_ok {ε : Type} {x : Except ε α} {f : α → Except ε β} {b : β} :
    (x >>= f) = .ok b ↔ ∃ a, x = .ok a ∧ f a = .ok b := by
  cases x <;> simp

theorem Except.bind_eq_error {ε : Type} {x : Except ε α} {f : α → Except ε β} {e : ε} :
    (x >>= f) = .error e ↔ x = .error e ∨ ∃ a, x = .ok a ∧ f a = .error e := by
  cases x <;> simp

/-- If every element succeeds, `mapM` is `map`. -/
theorem mapM_ok {ε : Type} {l : List α} {f : α → Except ε β} {g : α → β}
    (h : ∀ a ∈ l, f a = .ok (g a)) : l.mapM f = .ok (l.map g) := by
  induction l with
  | nil => rfl
  | cons a l ih =>
    rw [List.mapM_cons, h a (by simp), ih fun b hb => h b (by simp [hb])]
    rfl

/-- A successful `mapM` succeeded on every element, in order. -/
theorem mapM_eq_ok {ε : Type} {l : List α} {f : α → Except ε β} {r : List β} :
    l.mapM f = .ok r ↔ List.Forall₂ (fun a b => f a = .ok b) l r := by
  induction l generalizing r with
  | nil => simp [pure, Except.pure, eq_comm]
  | cons a l ih =>
    rw [List.mapM_cons, Except.bind_eq_ok, List.forall₂_cons_left_iff]
    constructor
    · rintro ⟨b, hb, h⟩
      rw [Except.bind_eq_ok] at h
      obtain ⟨bs, hbs, h⟩ := h
      cases h
      exact ⟨b, bs, hb, ih.mp hbs, rfl⟩
    · rintro ⟨b, bs, hb, hbs, rfl⟩
      exact ⟨b, hb, by rw [ih.mpr hbs]; rfl⟩

/-- `mapM` fails if the first failing element fails with `e`. -/
theorem mapM_error {ε : Type} {l₁ l₂ : List α} {a : α} {f : α → Except ε β} {g : α → β} {e : ε}
    (h₁ : ∀ a ∈ l₁, f a = .ok (g a)) (h : f a = .error e) :
    (l₁ ++ a :: l₂).mapM f = .error e := by
  rw [List.mapM_append, mapM_ok h₁, List.mapM_cons, h]
  rfl

end Trajopt
