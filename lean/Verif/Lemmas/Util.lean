import Verif.Model.Util
import Verif.Lemmas.Base
import Mathlib.Algebra.BigOperators.Group.List.Basic
import Mathlib.Tactic.Ring

/-! Helper lemmas about `GetIndex`. -/

set_option autoImplicit false

namespace Trajopt

theorem getIndexLoop_ok (N : List Nat) : ∀ (r i idx : Nat), i + r ≤ N.length →
    idx + ((N.drop i).take r).sum < 2 ^ 64 →
    getIndexLoop N r i idx = .ok (idx + ((N.drop i).take r).sum)
  | 0, i, idx, _, _ => by simp [getIndexLoop]
  | r + 1, i, idx, hi, hs => by
    have hi' : i < N.length := by omega
    rw [List.drop_eq_getElem_cons hi', List.take_succ_cons, List.sum_cons] at hs ⊢
    rw [getIndexLoop, vat_ok hi', Except.ok_bind, wadd_eq (by omega),
      getIndexLoop_ok N r (i + 1) _ (by omega) (by omega)]
    congr 1; omega

theorem getIndexLoop_error (N : List Nat) : ∀ (r i idx : Nat), i ≤ N.length →
    N.length < i + r → getIndexLoop N r i idx = .error .outOfRange
  | 0, i, idx, h1, h2 => by omega
  | r + 1, i, idx, h1, h2 => by
    rw [getIndexLoop]
    by_cases h : i < N.length
    · rw [vat_ok h, Except.ok_bind]
      exact getIndexLoop_error N r (i + 1) _ (by omega) (by omega)
    · rw [vat_error (by omega)]; rfl

theorem sum_take_le (N : List Nat) (k : Nat) : (N.take k).sum ≤ N.sum := by
  conv_rhs => rw [← List.take_append_drop k N, List.sum_append]
  omega

theorem sum_take_mono (N : List Nat) {j k : Nat} (h : j ≤ k) :
    (N.take j).sum ≤ (N.take k).sum := by
  have := sum_take_le (N.take k) j
  rwa [List.take_take, Nat.min_eq_left h] at this

theorem sum_take_succ (N : List Nat) {s : Nat} (h : s < N.length) :
    (N.take (s + 1)).sum = (N.take s).sum + N[s] := by
  rw [List.take_succ_eq_append_getElem h, List.sum_append]; simp

/-- `GetIndex(N, w + 1, s)` for an existing waypoint. -/
theorem getIndex_succ (N : List Nat) (w s : Nat) (hw : w ≤ N.length)
    (h : 1 + (N.take w).sum + s < 2 ^ 64) :
    getIndex N (w + 1) s = .ok (1 + (N.take w).sum + s) := by
  simp only [getIndex, Nat.zero_lt_succ, if_true, Nat.add_sub_cancel, gt_iff_lt]
  rw [getIndexLoop_ok N _ 0 _ (by simpa using hw) (by simp; omega), Except.ok_bind]
  simp only [List.drop_zero]
  rw [wadd_eq h]; rfl

end Trajopt
