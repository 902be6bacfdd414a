import Verif.Spec.Wide
import Verif.Lemmas.Semantics

/-!
# Lemmas about infinities and NaN
-/

set_option autoImplicit false

namespace Trajopt

open Spec

namespace Wide

section
variable (x y : Wide) (a b : ℝ)
theorem hadd : x + y = add x y := rfl
theorem hsub : x - y = add x (neg y) := rfl
theorem hmul : x * y = mul x y := rfl
theorem hdiv : x / y = div x y := rfl
theorem hneg : -x = neg x := rfl
@[simp] theorem fin_add : (fin a + fin b : Wide) = fin (a + b) := rfl
@[simp] theorem fin_sub : (fin a - fin b : Wide) = fin (a - b) := by
  rw [sub_eq_add_neg]; rfl
@[simp] theorem fin_mul : (fin a * fin b : Wide) = fin (a * b) := rfl
@[simp] theorem fin_neg : (-fin a : Wide) = fin (-a) := rfl
theorem fin_div : (fin a / fin b : Wide) =
    if b = 0 then (if a = 0 then nan else inf (below a)) else fin (a / b) := rfl
@[simp] theorem fin_sin : Num.sin (fin a) = fin (Real.sin a) := rfl
@[simp] theorem fin_cos : Num.cos (fin a) = fin (Real.cos a) := rfl
@[simp] theorem fin_hypot : Num.hypot (fin a) (fin b) = fin (Num.hypot a b) := rfl
@[simp] theorem fin_sign : Num.sign (fin a) = fin (Num.sign a) := rfl
@[simp] theorem fin_lit (q : ℚ) : (Num.lit q : Wide) = fin q := rfl
@[simp] theorem fin_eq : Dbl.eq (fin a) (fin b) = decide (a = b) := by
  change Wide.eq (fin a) (fin b) = _
  simp [Wide.eq]
@[simp] theorem fin_inj : fin a = fin b ↔ a = b := by simp

@[simp] theorem nan_add : nan + x = nan := rfl
@[simp] theorem add_nan : x + nan = nan := by cases x <;> rfl
@[simp] theorem nan_sub : nan - x = nan := rfl
@[simp] theorem sub_nan : x - nan = nan := by cases x <;> rfl
@[simp] theorem nan_mul : nan * x = nan := rfl
@[simp] theorem mul_nan : x * nan = nan := by cases x <;> rfl
@[simp] theorem nan_div : nan / x = nan := rfl
@[simp] theorem div_nan : x / nan = nan := by cases x <;> rfl
@[simp] theorem neg_nan : -nan = nan := rfl
@[simp] theorem sin_nan : Num.sin nan = nan := rfl
@[simp] theorem cos_nan : Num.cos nan = nan := rfl

variable (s t : Bool)
@[simp] theorem inf_add_fin : inf s + fin a = inf s := rfl
@[simp] theorem fin_add_inf : fin a + inf s = inf s := rfl
@[simp] theorem inf_sub_fin : inf s - fin a = inf s := rfl
@[simp] theorem fin_sub_inf : fin a - inf s = inf !s := rfl
theorem inf_add_inf : inf s + inf t = if s = t then inf s else nan := rfl
theorem inf_sub_inf : inf s - inf t = if s = !t then inf s else nan := rfl
@[simp] theorem neg_inf : -inf s = inf !s := rfl
@[simp] theorem inf_mul_inf : inf s * inf t = inf (s != t) := rfl
theorem inf_mul_fin : inf s * fin a = if a = 0 then nan else inf (s != below a) := rfl
theorem fin_mul_inf : fin a * inf s = if a = 0 then nan else inf (below a != s) := rfl
@[simp] theorem sin_inf : Num.sin (inf s) = nan := rfl
@[simp] theorem cos_inf : Num.cos (inf s) = nan := rfl
@[simp] theorem sign_inf : Num.sign (inf s) = fin (sgn s * 1) := by
  cases s <;> simp [sgn] <;> rfl
end

/-- A number. -/
def IsFin (x : Wide) : Prop := ∃ r, x = fin r

@[simp] theorem isFin_fin (r : ℝ) : (fin r).IsFin := ⟨r, rfl⟩
@[simp] theorem isFin_nan : ¬ nan.IsFin := by rintro ⟨_, h⟩; cases h
@[simp] theorem isFin_inf (s : Bool) : ¬ (inf s).IsFin := by rintro ⟨_, h⟩; cases h

theorem isFin_add {x y : Wide} : (x + y).IsFin ↔ x.IsFin ∧ y.IsFin := by
  cases x <;> cases y <;> simp [inf_add_inf]
  split <;> simp

theorem isFin_sub {x y : Wide} : (x - y).IsFin ↔ x.IsFin ∧ y.IsFin := by
  cases x <;> cases y <;> simp [inf_sub_inf]
  split <;> simp

theorem isFin_mul {x y : Wide} : (x * y).IsFin ↔ x.IsFin ∧ y.IsFin := by
  cases x <;> cases y <;> simp [inf_mul_fin, fin_mul_inf] <;> split <;> simp

end Wide

/-! ### finite expressions -/

open Wide

theorem value_add (σ : ℕ → Wide) (a b : Expr Wide) : (a + b).value σ = a.value σ + b.value σ := rfl
theorem value_sub (σ : ℕ → Wide) (a b : Expr Wide) : (a - b).value σ = a.value σ - b.value σ := rfl
theorem value_mul (σ : ℕ → Wide) (a b : Expr Wide) : (a * b).value σ = a.value σ * b.value σ := rfl
theorem value_div (σ : ℕ → Wide) (a b : Expr Wide) : (a / b).value σ = a.value σ / b.value σ := rfl
theorem value_neg (σ : ℕ → Wide) (a : Expr Wide) : (-a).value σ = -a.value σ := rfl
theorem value_lit (σ : ℕ → Wide) (q : ℚ) : (Num.lit q : Expr Wide).value σ = fin q := rfl
theorem value_const (σ : ℕ → Wide) (d : Wide) : (Expr.const d).value σ = d := rfl
theorem value_var (σ : ℕ → Wide) (i : ℕ) : (Expr.var i : Expr Wide).value σ = σ i := rfl
theorem value_hypot (σ : ℕ → Wide) (a b : Expr Wide) :
    (Num.hypot a b).value σ = Num.hypot (a.value σ) (b.value σ) := rfl
theorem value_sin (σ : ℕ → Wide) (a : Expr Wide) : (Num.sin a).value σ = Num.sin (a.value σ) := rfl
theorem value_cos (σ : ℕ → Wide) (a : Expr Wide) : (Num.cos a).value σ = Num.cos (a.value σ) := rfl
theorem value_sign (σ : ℕ → Wide) (a : Expr Wide) :
    (Num.sign a).value σ = Num.sign (a.value σ) := rfl

/-- Finite constants and variables: the value is the real one. -/
theorem value_map (σ : ℕ → ℝ) (e : Expr ℝ) (h : e.Defined σ) :
    (e.map fin).value (finite σ) = fin (e.eval σ) := by
  induction e with
  | const d => rfl
  | var i => rfl
  | add a b iha ihb => simp only [Expr.map, Expr.value, iha h.1, ihb h.2]; rfl
  | sub a b iha ihb => simp only [Expr.map, Expr.value, iha h.1, ihb h.2, fin_sub]; rfl
  | mul a b iha ihb => simp only [Expr.map, Expr.value, iha h.1, ihb h.2]; rfl
  | div a b iha ihb =>
    simp only [Expr.map, Expr.value, iha h.1, ihb h.2.1, fin_div, if_neg h.2.2]; rfl
  | neg a iha => simp only [Expr.map, Expr.value, iha h]; rfl
  | sin a iha => simp only [Expr.map, Expr.value, iha h]; rfl
  | cos a iha => simp only [Expr.map, Expr.value, iha h]; rfl
  | atan2 a b iha ihb => simp only [Expr.map, Expr.value, iha h.1, ihb h.2]; rfl
  | hypot a b iha ihb => simp only [Expr.map, Expr.value, iha h.1, ihb h.2]; rfl
  | sign a iha => simp only [Expr.map, Expr.value, iha h]; rfl

/-- Both sides of a constraint have a value. -/
def Con.Defined (σ : ℕ → ℝ) : Con ℝ → Prop
  | .eq a b => a.Defined σ ∧ b.Defined σ
  | .le a b => a.Defined σ ∧ b.Defined σ
  | .ge a b => a.Defined σ ∧ b.Defined σ
  | .leInf a => a.Defined σ

theorem test_map (σ : ℕ → ℝ) (c : Con ℝ) (h : c.Defined σ) :
    (c.map fin).Test (finite σ) ↔ c.Holds σ := by
  cases c with
  | eq a b =>
    simp only [Con.map, Con.Test, value_map σ _ h.1, value_map σ _ h.2, fin_sub, Con.Holds, h.1, h.2,
      true_and, fin_inj, sub_eq_zero]
  | le a b =>
    simp only [Con.map, Con.Test, value_map σ _ h.1, value_map σ _ h.2, fin_sub, Con.Holds, h.1, h.2,
      true_and, Wide.Nonneg, sub_nonneg]
  | ge a b =>
    simp only [Con.map, Con.Test, value_map σ _ h.1, value_map σ _ h.2, fin_sub, Con.Holds, h.1, h.2,
      true_and, Wide.Nonneg, sub_nonneg, ge_iff_le]
  | leInf a =>
    have ha : a.Defined σ := h
    simp only [Con.map, Con.Test, value_map σ _ ha, Con.Holds, ha, Wide.Nonneg, inf_sub_fin]

theorem tests_map (σ : ℕ → ℝ) (l : List (Con ℝ)) (h : ∀ c ∈ l, c.Defined σ) :
    (∀ c ∈ l.map (Con.map fin), c.Test (finite σ)) ↔ ∀ c ∈ l, c.Holds σ := by
  simp only [List.forall_mem_map]
  exact forall₂_congr fun c hc => test_map σ c (h c hc)

end Trajopt
