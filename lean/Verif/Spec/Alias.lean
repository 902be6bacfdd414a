import Verif.Model.Alias

/-!
# When a reference into the path dangles
-/

set_option autoImplicit false

namespace Trajopt.Spec

variable {D : Type}

/-- The reference dangles before `SgmtConstraint(fromIndex, toIndex, …)` is over: it points to a full vector that the
call appends to, and the call reads it once more after that.  The call appends to the waypoint constraints of
`fromIndex`, …, `toIndex` and the segment constraints of `fromIndex + 1`, …, `toIndex`, the last one last. -/
def Dangles (m : Memory D) (fromIndex toIndex i : Nat) (s : Slot) : Prop :=
  (m.list i s).length = (m.buffer i s).capacity ∧
  (s = .waypoint ∧ fromIndex ≤ i ∧ i ≤ toIndex ∨ s = .segment ∧ fromIndex < i ∧ i < toIndex)

end Trajopt.Spec
