import Verif.Model.Base
import Verif.Model.Scalar

/-!
# /repo/include/trajopt/util/TrajoptUtil.hpp
-/

namespace Trajopt

/-- The loop of `GetIndex`: `for (_wptIndex = 1; _wptIndex < wptIndex; ++_wptIndex)
index += N.at(_wptIndex - 1);` (TrajoptUtil.hpp:27-29).  `remaining` iterations are left and the
next `_wptIndex - 1` is `i`. -/
def getIndexLoop (N : List Nat) : (remaining i index : Nat) → Res Nat
  | 0, _, index => .ok index
  | r + 1, i, index => do
    let n ← vat N i
    getIndexLoop N r (i + 1) (wadd index n)

/-- `GetIndex(N, wptIndex, sampIndex)` (TrajoptUtil.hpp:21-32). -/
def getIndex (N : List Nat) (wptIndex sampIndex : Nat) : Res Nat := do
  let index := if wptIndex > 0 then 1 else 0
  let index ← getIndexLoop N (wptIndex - 1) 0 index
  return wadd index sampIndex

variable {D : Type} [Dbl D]

/-- `Linspace` (TrajoptUtil.hpp:34-42). -/
def linspace (startValue endValue : D) (numSamples : Nat) : List D :=
  let delta := (endValue - startValue) / Dbl.ofNat numSamples
  (List.range' 1 numSamples).map fun index => startValue + Dbl.ofNat index * delta

/-- `AngleLinspace` (TrajoptUtil.hpp:44-60). -/
def angleLinspace (startValue endValue : D) (numSamples : Nat) : List D :=
  let diff := endValue - startValue
  let modulus : D := Num.lit 2 * Dbl.pi
  let minimumInput : D := -Dbl.pi
  let maximumInput : D := Dbl.pi
  let numMax := Dbl.trunc ((diff - minimumInput) / modulus)
  let diff := diff - numMax * modulus
  let numMin := Dbl.trunc ((diff - maximumInput) / modulus)
  let diff := diff - numMin * modulus
  linspace startValue (startValue + diff) numSamples

end Trajopt
