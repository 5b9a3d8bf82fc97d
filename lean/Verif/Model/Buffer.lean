/-
Memory buffers and counted loops of the C code.
A buffer is a list of the allocated length; an access outside of it gives `none`.
-/
import Mathlib.Data.List.Basic

namespace Verif.Buf

variable {A S : Type}

/-- `b[i]` read. -/
def rd (b : List A) (i : Nat) : Option A := b[i]?

/-- `b[i] = v`; `none` is a write outside of the allocated memory. -/
def wr (b : List A) (i : Nat) (v : A) : Option (List A) :=
  if i < b.length then some (b.set i v) else none

/-- `b[i]` read with a signed index. -/
def rdI (b : List A) (i : Int) : Option A := if 0 ≤ i then rd b i.toNat else none

/-- `b[i] = v` with a signed index. -/
def wrI (b : List A) (i : Int) (v : A) : Option (List A) :=
  if 0 ≤ i then wr b i.toNat v else none

/-- `cnt` passes of a loop body with the counter starting at `i`. -/
def forUp : Nat → Nat → (Nat → S → Option S) → S → Option S
  | 0, _, _, s => some s
  | k + 1, i, f, s => (f i s).bind (forUp k (i + 1) f)

/-- `for (i = a; i <= n; ++i)`. -/
def forTo (a n : Nat) (f : Nat → S → Option S) (s : S) : Option S := forUp (n + 1 - a) a f s

/-- `for (i = a; i < n; ++i)`. -/
def forBelow (a n : Nat) (f : Nat → S → Option S) (s : S) : Option S := forUp (n - a) a f s

end Verif.Buf
