/-
Model of the time-series interpolation.
Source: eoxmagmod/eoxmagmod/include/interpolation.h, pymm_interp.h
-/
import Verif.Model.Bisect
import Verif.Model.XFloat

namespace Verif.Interp

open Verif.Bisect

variable {K : Type} [Field K] [LinearOrder K]

/-- `INTERP_BASIS`, interpolation.h lines 44-49 (`order` is the length of `b`). -/
structure Basis (K : Type) where
  i0 : Int
  i : Int
  b : List (X K)

/-- `n - k` for `size_t n` (64 bit unsigned arithmetic). -/
def sizeSub (n k : Nat) : Int := ((n : Int) - k) % 2 ^ 64

/-- `CLIP` macro, interpolation.h line 38.  The comparison `v < 0` is signed, the
comparison with the `size_t` upper bound happens for `v >= 0` only. -/
def clip (v lo hi : Int) : Int := if v < lo then lo else if v > hi then hi else v

/-- `get_interp0_basis`, interpolation.h lines 71-79. -/
def interp0Basis (x : X K) (v : List (X K)) : Option (Basis K) := do
  let idx0 ← bisectRightP (fun a => X.le a x) v
  let idx := clip idx0 0 (sizeSub v.length 1)
  return ⟨idx0, idx, [.fin 1]⟩

/-- `get_interp1_basis`, interpolation.h lines 92-101. -/
def interp1Basis (x : X K) (v : List (X K)) : Option (Basis K) := do
  let idx0 ← bisectRightP (fun a => X.le a x) v
  let idx := clip idx0 0 (sizeSub v.length 2)
  let v0 ← rd v idx
  let v1 ← rd v (idx + 1)
  let alpha := X.div (X.sub x v0) (X.sub v1 v0)
  return ⟨idx0, idx, [X.sub (.fin 1) alpha, alpha]⟩

/-- `get_interp1d1_basis`, interpolation.h lines 115-124. -/
def interp1d1Basis (x : X K) (v : List (X K)) : Option (Basis K) := do
  let idx0 ← bisectRightP (fun a => X.le a x) v
  let idx := clip idx0 0 (sizeSub v.length 2)
  let v0 ← rd v idx
  let v1 ← rd v (idx + 1)
  let alpha := X.div (.fin 1) (X.sub v1 v0)
  return ⟨idx0, idx, [X.neg alpha, alpha]⟩

/-- `interp0_eval`, interpolation.h lines 130-132. -/
def interp0Eval (basis : Basis K) (v : List (X K)) : Option (X K) := rd v basis.i

/-- `interp1_eval`, interpolation.h lines 138-140. -/
def interp1Eval (basis : Basis K) (v : List (X K)) : Option (X K) := do
  let b0 ← basis.b[0]?
  let b1 ← basis.b[1]?
  let v0 ← rd v basis.i
  let v1 ← rd v (basis.i + 1)
  return X.add (X.mul b0 v0) (X.mul b1 v1)

/-- Interpolation kinds, pymm_interp.h lines 37-39. -/
inductive Kind where
  | c0
  | c1
  | c1d1
deriving DecidableEq

/-- Minimal number of nodes, pymm_interp.h lines 105-124. -/
def minNodes : Kind → Nat
  | .c0 => 1
  | .c1 => 2
  | .c1d1 => 2

/-- Basis function selected by the kind, pymm_interp.h lines 105-124. -/
def getBasis : Kind → X K → List (X K) → Option (Basis K)
  | .c0 => interp0Basis
  | .c1 => interp1Basis
  | .c1d1 => interp1d1Basis

/-- Evaluation function selected by the kind, pymm_interp.h lines 105-124. -/
def evalBasis : Kind → Basis K → List (X K) → Option (X K)
  | .c0 => interp0Eval
  | .c1 => interp1Eval
  | .c1d1 => interp1Eval

/-- Outcome of `interp` at one time for one coefficient. -/
inductive Res (K : Type) where
  /-- Python `ValueError` -/
  | valueError
  /-- read outside of an array -/
  | oob
  | ok (x : X K)

/-- The evaluation step `_interp`, pymm_interp.h lines 233-248, for one time and
one coefficient series. -/
def interpPoint (kind : Kind) (extrapolate : Bool) (t : X K) (t0 c0 : List (X K)) :
    Option (X K) := do
  let basis ← getBasis kind t t0
  let last ← rd t0 ((t0.length : Int) - 1)
  if extrapolate || basis.i0 == basis.i || X.eq t last then
    evalBasis kind basis c0
  else
    return .nan

/-- Python `interp(time, time0, coeff0, kind, extrapolate)`, pymm_interp.h lines
71-198, for one time and one coefficient series `coeff0[k, :]`.  Simplified:
invalid kind values cannot be expressed; multi-dimensional `time` and `coeff0`
are the entry-wise application of this function (`_interp`, `_interp_eval`). -/
def interp (kind : Kind) (extrapolate : Bool) (t : X K) (t0 c0 : List (X K)) : Res K :=
  if t0.length ≠ c0.length then .valueError            -- line 137
  else if t0.length < minNodes kind then .valueError   -- line 142
  else match interpPoint kind extrapolate t t0 c0 with
    | none => .oob
    | some x => .ok x

/-- `interp` on arrays: `time` of any shape given by its flat list of items, and
a list of coefficient series; pymm_interp.h lines 208-277. -/
def interpArray (kind : Kind) (extrapolate : Bool) (ts : List (X K)) (t0 : List (X K))
    (c0 : List (List (X K))) : List (List (Res K)) :=
  ts.map fun t => c0.map fun c => interp kind extrapolate t t0 c

end Verif.Interp
