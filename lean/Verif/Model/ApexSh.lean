/-
Model of the spherical harmonic evaluation of the quasi-dipole coordinates.
Source: qdipole/apexsh.f90

Real numbers of both kinds are the elements of a field `K` without rounding (`sngl` and `dble`
are identities); the functions of libm are parameters.  Fortran arrays are
functions with their bounds; an access outside of the bounds, and the read of an item of a
coefficient table which the initialisation does not set, gives `none`.
Not modelled: the inverse transform (`apxg2all` with the apex base vectors, `apxq2g`).
-/
import Verif.Model.Buffer
import Verif.Model.Geo
import Mathlib.Algebra.BigOperators.Group.Finset.Basic

namespace Verif.Apex

open Verif.Buf Verif.Geo

variable {K : Type} [Field K]

/-- `A(0:n)`. -/
structure Vec (K : Type) where
  len : Nat
  at' : Nat → K

/-- `A(0:n, 0:m)`. -/
structure Mat (K : Type) where
  n : Nat
  m : Nat
  at' : Nat → Nat → K

/-- `A(i)`. -/
def Vec.rd (a : Vec K) (i : Nat) : Option K := if i < a.len then some (a.at' i) else none

/-- `A(i) = v`. -/
def Vec.wr (a : Vec K) (i : Nat) (v : K) : Option (Vec K) :=
  if i < a.len then some { a with at' := fun k => if k = i then v else a.at' k } else none

/-- `A(i,j)`. -/
def Mat.rd (a : Mat K) (i j : Nat) : Option K := if i ≤ a.n ∧ j ≤ a.m then some (a.at' i j) else none

/-- `A(i,j) = v`. -/
def Mat.wr (a : Mat K) (i j : Nat) (v : K) : Option (Mat K) :=
  if i ≤ a.n ∧ j ≤ a.m then some { a with at' := fun k l => if k = i ∧ l = j then v else a.at' k l } else none

/-! ### Coefficient tables of the recurrences, `alfbasisinit` (apexsh.f90 lines 690-728) -/

section tables
variable (sqrt : K → K) (nmax mmax : Nat)

/-- `anm(n,m)`, lines 713 and 720. -/
def anm (n m : Nat) : Option K :=
  if m = 0 then if 1 ≤ n ∧ n ≤ nmax then some (sqrt ((2 * (n : K) - 1) * (2 * n + 1)) / n) else none
  else if m ≤ mmax ∧ m + 1 ≤ n ∧ n ≤ nmax then
    some (sqrt ((2 * (n : K) - 1) * (2 * n + 1) / (((n : K) - m) * (n + m)))) else none

/-- `bnm(n,m)`, lines 714 and 721. -/
def bnm (n m : Nat) : Option K :=
  if m = 0 then if 1 ≤ n ∧ n ≤ nmax then
      some (sqrt ((2 * (n : K) + 1) * (n - 1) * (n - 1) / (2 * n - 3)) / n) else none
  else if m ≤ mmax ∧ m + 1 ≤ n ∧ n ≤ nmax then
    some (sqrt ((2 * (n : K) + 1) * (n + m - 1) * (n - m - 1) / (((n : K) - m) * (n + m) * (2 * n - 3)))) else none

/-- `cm(m)`, line 718. -/
def cm (m : Nat) : Option K := if 1 ≤ m ∧ m ≤ mmax then some (sqrt ((2 * (m : K) + 1) / (2 * m))) else none

/-- `dnm(n,m)`, line 722. -/
def dnm (n m : Nat) : Option K :=
  if 1 ≤ m ∧ m ≤ mmax ∧ m + 1 ≤ n ∧ n ≤ nmax then
    some (sqrt (((n : K) - m) * (n + m) * (2 * n + 1) / (2 * n - 1))) else none

/-- `en(n)`, line 712. -/
def en (n : Nat) : Option K := if 1 ≤ n ∧ n ≤ nmax then some (sqrt ((n : K) * (n + 1))) else none

/-- `narr(n)`, line 711. -/
def narr (n : Nat) : Option K := if 1 ≤ n ∧ n ≤ nmax then some (n : K) else none

/-- `marr(m)`, line 717. -/
def marr (m : Nat) : Option K := if 1 ≤ m ∧ m ≤ mmax then some (m : K) else none

end tables

/-- The arrays `pbar`, `vbar`, `wbar` of the module. -/
structure Alf (K : Type) where
  P : Mat K
  V : Mat K
  W : Mat K

section alf
variable (sqrt : K → K) (nmax mmax : Nat) (x y : K)

/-- One pass of the inner loop over the degrees, apexsh.f90 lines 754-759. -/
def alfInner (m n : Nat) (s : Alf K) : Option (Alf K) := do
  let W ← s.W.wr n m ((← anm sqrt nmax mmax n m) * x * (← s.W.rd (n - 1) m) -
    (← bnm sqrt nmax mmax n m) * (← s.W.rd (n - 2) m))
  let P ← s.P.wr n m (y * (← W.rd n m))
  let V ← s.V.wr n m ((← narr nmax n) * x * (← W.rd n m) - (← dnm sqrt nmax mmax n m) * (← W.rd (n - 1) m))
  let W ← W.wr (n - 2) m ((← marr mmax m) * (← W.rd (n - 2) m))
  some ⟨P, V, W⟩

/-- The end of the outer loop, lines 760-762. -/
def alfTail (m : Nat) (s : Alf K) : Option (Alf K) := do
  let W ← s.W.wr (nmax - 1) m ((← marr mmax m) * (← s.W.rd (nmax - 1) m))
  let W ← W.wr nmax m ((← marr mmax m) * (← W.rd nmax m))
  let V ← s.V.wr m m (x * (← W.rd m m))
  some ⟨s.P, V, W⟩

/-- One pass of the outer loop over the orders, lines 751-763. -/
def alfOuter (m : Nat) (s : Alf K) : Option (Alf K) := do
  let W ← s.W.wr m m ((← cm sqrt mmax m) * (← s.P.rd (m - 1) (m - 1)))
  let P ← s.P.wr m m (y * (← W.rd m m))
  let s ← forTo (m + 1) nmax (alfInner sqrt nmax mmax x y m) ⟨P, s.V, W⟩
  alfTail nmax mmax x m s

/-- The order 0, lines 766-769. -/
def alfZero (n : Nat) (s : Alf K) : Option (Alf K) := do
  let P ← s.P.wr n 0 ((← anm sqrt nmax mmax n 0) * x * (← s.P.rd (n - 1) 0) -
    (← bnm sqrt nmax mmax n 0) * (← s.P.rd (n - 2) 0))
  let V ← s.V.wr n 0 (-(← en sqrt nmax n) * (← P.rd n 1))
  some ⟨P, V, s.W⟩

/-- The degree 1 of the order 0, lines 764-765. -/
def alfOne (s : Alf K) : Option (Alf K) := do
  let P ← s.P.wr 1 0 ((← anm sqrt nmax mmax 1 0) * x * (← s.P.rd 0 0))
  let V ← s.V.wr 1 0 (-(← en sqrt nmax 1) * (← P.rd 1 1))
  some ⟨P, V, s.W⟩

/-- `alfbasis`, apexsh.f90 lines 732-773, with `x` and `y` the cosine and the sine of the
colatitude and `p00` the literal of line 746.
The degrees 0..`nmax` and the orders 0..`mmax`. -/
def alfbasis (p00 : K) (s : Alf K) : Option (Alf K) := do
  let P ← s.P.wr 0 0 p00
  let s ← forTo 1 mmax (alfOuter sqrt nmax mmax x y) ⟨P, s.V, s.W⟩
  let s ← alfOne sqrt nmax mmax x s
  forTo 2 nmax (alfZero sqrt nmax mmax x) s

end alf

/-! ### Spherical harmonics, `shcalc` (apexsh.f90 lines 627-668) -/

/-- `sh`, `shgradtheta`, `shgradphi`. -/
structure Sh (K : Type) where
  sh : Vec K
  gt : Vec K
  gp : Vec K

section sh
variable (L : Libm K) (nmax mmax : Nat)

/-- Lines 641-647, with the counter `i` equal to `i1`. -/
def shZero (a : Alf K) (n : Nat) (s : Sh K × Nat) : Option (Sh K × Nat) := do
  let sh ← s.1.sh.wr s.2 (← a.P.rd n 0)
  let gt ← s.1.gt.wr s.2 (← a.V.rd n 0)
  let gp ← s.1.gp.wr s.2 0
  some (⟨sh, gt, gp⟩, s.2 + 1)

/-- Lines 652-656. -/
def shVal (a : Alf K) (c d : K) (m n : Nat) (s : Sh K × Nat) : Option (Sh K × Nat) := do
  let sh ← s.1.sh.wr s.2 ((← a.P.rd n m) * c)
  let sh ← sh.wr (s.2 + 1) ((← a.P.rd n m) * d)
  some (⟨sh, s.1.gt, s.1.gp⟩, s.2 + 2)

/-- Lines 658-664. -/
def shGrad (a : Alf K) (c d : K) (m n : Nat) (s : Sh K × Nat) : Option (Sh K × Nat) := do
  let gt ← s.1.gt.wr s.2 ((← a.V.rd n m) * c)
  let gt ← gt.wr (s.2 + 1) ((← a.V.rd n m) * d)
  let gp ← s.1.gp.wr s.2 (-(← a.W.rd n m) * d)
  let gp ← gp.wr (s.2 + 1) ((← a.W.rd n m) * c)
  some (⟨s.1.sh, gt, gp⟩, s.2 + 2)

/-- The counters `i` and `i1` with the arrays. -/
structure ShSt (K : Type) where
  sh : Sh K
  i : Nat
  i1 : Nat

/-- One pass of the loop over the orders, lines 648-666. -/
def shOrder (a : Alf K) (vec : Bool) (phi : K) (m : Nat) (s : ShSt K) : Option (ShSt K) := do
  let r ← forTo m nmax (shVal a (L.cos (m * phi)) (L.sin (m * phi)) m) (s.sh, s.i)
  let q ← if vec then forTo m nmax (shGrad a (L.cos (m * phi)) (L.sin (m * phi)) m) (r.1, s.i1) else some (r.1, s.i1)
  some ⟨q.1, r.2, q.2⟩

/-- `shcalc` after `alfbasis`, lines 639-668. -/
def shcalc (a : Alf K) (vec : Bool) (phi : K) (s : Sh K) : Option (Sh K) := do
  let r ← forTo 0 nmax (shZero a) (s, 0)
  (forTo 1 mmax (shOrder L nmax a vec phi) ⟨r.1, r.2, r.2⟩).map (·.sh)

end sh

/-- `dot_product(a, b)` of two arrays of the same size. -/
def dot (a b : Vec K) : K := ∑ i ∈ Finset.range a.len, a.at' i * b.at' i

/-- Number of the spherical harmonics, apexsh.f90 line 255 (integers: a negative size is an
empty array). -/
def ntermsh (nmax mmax : Nat) : Nat := ((mmax : Int) * (2 * nmax - mmax + 1) + nmax + 1).toNat

/-- `Req`, `eps`, `Re`, `ecc2`, lines 143-144. -/
def req : K := 6378137 / 1000
def eps : K := 1 / (298257223563 / 10 ^ 9)
def re : K := req * (1 - eps / 3)
def ecc2 : K := eps * (2 - eps)

/-- Coefficients collapsed for a height: `h`, `xqcoeff`, `yqcoeff`, `zqcoeff`. -/
structure Collapsed (K : Type) where
  h : K
  x : Vec K
  y : Vec K
  z : Vec K

/-- `polynomq(l)`, lines 328-331 (`polynomq(0) = 1`). -/
def poly (rho : K) : Nat → K
  | 0 => 1
  | l + 1 => poly rho l * rho

/-- Inner loop of lines 339-347 for one coordinate: sum over `l` of `qcoeff0(l*ntermsh + itermsh) * polynomq(l)`. -/
def collapse1 (q : Vec K) (nsh lmax : Nat) (rho : K) (itermsh : Nat) : Option K :=
  forTo 0 lmax (fun l s => (q.rd (l * nsh + itermsh)).map (fun c => s + c * poly rho l)) 0

/-- Loops of lines 332-348 for one coordinate. -/
def collapse (q : Vec K) (nsh lmax : Nat) (rho : K) : Option (Vec K) :=
  forBelow 0 nsh (fun i (s : Vec K) => (collapse1 q nsh lmax rho i).bind (s.wr i)) ⟨nsh, fun _ => 0⟩

/-- Lines 325-349: coefficients for the height `alt`.  The derivatives with respect to `rho`
are not used by `apxg2q` and not modelled. -/
def collapsed (qx qy qz : Vec K) (nsh lmax : Nat) (alt : K) : Option (Collapsed K) := do
  let rho := re / (re + alt)
  some ⟨alt, ← collapse qx nsh lmax rho, ← collapse qy nsh lmax rho, ← collapse qz nsh lmax rho⟩

/-- Outputs of `apxg2q`: latitude, longitude [deg], base vectors. -/
structure Qd (K : Type) where
  lat : K
  lon : K
  f11 : K
  f12 : K
  f21 : K
  f22 : K
  f : K
deriving DecidableEq

/-- `missing`, line 145. -/
def missing : K := -9999

/-- Gradients of the quasi-dipole latitude and longitude, lines 373-392:
`(qlatgrad(1), qlatgrad(2), qlongrad(1), qlongrad(2))`. -/
def gradients (L : Libm K) (c : Collapsed K) (s : Sh K) (theta : K) : K × K × K × K :=
  let xq := dot s.sh c.x
  let yq := dot s.sh c.y
  let zq := dot s.sh c.z
  let qlon := L.atan2 yq xq
  let qlat := L.atan2 zq (L.sqrt (xq * xq + yq * yq))
  let ct := L.cos theta
  let jt := 1 - ecc2 * ct * ct
  let r0 := req / L.sqrt jt
  let j := (c.h + (1 - ecc2) * r0 / jt) / (re + c.h)
  let r := (c.h + r0) / (re + c.h)
  let x1 := dot s.gp c.x
  let y1 := dot s.gp c.y
  let z1 := dot s.gp c.z
  let x2 := -dot s.gt c.x
  let y2 := -dot s.gt c.y
  let z2 := -dot s.gt c.z
  ((-(L.cos qlon * x1 + L.sin qlon * y1) * L.sin qlat + L.cos qlat * z1) / r,
   (-(L.cos qlon * x2 + L.sin qlon * y2) * L.sin qlat + L.cos qlat * z2) / j,
   (-L.sin qlon * x1 + L.cos qlon * y1) / r,
   (-L.sin qlon * x2 + L.cos qlon * y2) / j)

/-- `dtor`, line 142. -/
def dtor (L : Libm K) : K := L.pi / 180

/-- Lines 357-403 of `apxg2q`, from the spherical harmonics to the outputs. -/
def outputs (L : Libm K) (c : Collapsed K) (s : Sh K) (theta : K) (vec : Bool) : Qd K :=
  let xq := dot s.sh c.x
  let yq := dot s.sh c.y
  let zq := dot s.sh c.z
  let lon := L.atan2 yq xq / dtor L
  let lat := L.atan2 zq (L.sqrt (xq * xq + yq * yq)) / dtor L
  if vec then
    let g := gradients L c s theta
    ⟨lat, lon, g.2.1, -g.1, -g.2.2.2, g.2.2.1, g.2.1 * g.2.2.1 - -g.1 * -g.2.2.2⟩
  else ⟨lat, lon, missing, missing, missing, missing, missing⟩

/-- Arrays kept by the module between the calls: Legendre functions and spherical harmonics. -/
structure Work (K : Type) where
  alf : Alf K
  sh : Sh K

/-- Lines 352-403 of `apxg2q` for the coefficients `c`: `shcalc` at the colatitude and longitude,
then the outputs.  The result includes the arrays left to the next call. -/
def evalPoint (L : Libm K) (p00 : K) (nmax mmax : Nat) (w : Work K) (c : Collapsed K) (glat glon : K) (vec : Bool) :
    Option (Qd K × Work K) := do
  let theta := (90 - glat) * dtor L
  let phi := glon * dtor L
  let a ← alfbasis L.sqrt nmax mmax (L.cos theta) (L.sin theta) p00 w.alf
  let s ← shcalc L nmax mmax a vec phi w.sh
  some (outputs L c s theta vec, ⟨a, s⟩)

end Verif.Apex
