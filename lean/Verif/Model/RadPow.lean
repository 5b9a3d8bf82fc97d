/-
Model of the relative radius powers.
Source: eoxmagmod/eoxmagmod/include/spherical_harmonics.h, pymm_relradpow.h
-/
import Verif.Model.Buffer
import Mathlib.Algebra.Field.Defs
import Mathlib.Order.Defs.LinearOrder

namespace Verif.RadPow

open Verif.Buf

variable {K : Type} [Field K]

/-- `shc_relradpow_internal`, spherical_harmonics.h lines 295-306. -/
def internal (b : List K) (degree : Nat) (relrad : K) : Option (List K) := do
  let rr := 1 / relrad
  let s ← forTo 0 degree (fun i s => do
    let last := s.2 * rr
    let b ← wr s.1 i last
    return (b, last)) (b, rr)
  return s.1

/-- `shc_relradpow_external`, spherical_harmonics.h lines 319-335. -/
def external (b : List K) (degree : Nat) (relrad : K) : Option (List K) := do
  let val : K := 1
  let b ← wr b 0 (val / relrad)
  let b ← if 1 ≤ degree then wr b 1 val else some b
  let s ← forTo 2 degree (fun i s => do
    let val := s.2 * relrad
    let b ← wr s.1 i val
    return (b, val)) (b, val)
  return s.1

/-- `relradpow` for one radius, pymm_relradpow.h lines 69-188: outer `none` is
`ValueError` (lines 93, 99), inner `none` an access outside of the output array, whose
content `b` is arbitrary. -/
def relradpow [LinearOrder K] (b : List K) (rad : K) (degree : Int) (ref : K) (isInternal : Bool) :
    Option (Option (List K)) :=
  if degree < 0 then none
  else if ref ≤ 0 then none
  else some ((if isInternal then internal else external) b degree.toNat (rad / ref))

end Verif.RadPow
