/-
Model of the evaluation of the quasi-dipole coordinates of a batch of points.
Source: qdipole/eval_qdlatlon.f90, qdipole/apexsh.f90 (loadapxsh, allocatearrays, apxg2q),
qdipole/apex.f90 (CONVRT), qdipole/cqdipole.c, eoxmagmod/eoxmagmod/pyqd_eval_qdlatlon.h

The variables of the Fortran module, which live between the calls, are the structure `Mod`.
The file system is a function from the file names to the parsed tables; opening a file which does
not exist ends the program (`none`).  Times are numbers of `X K` (NaN and infinities
included), the positions are finite.  The conversion from double to single precision is the
parameter `sngl`; all other arithmetic is without rounding.  Allocated memory has arbitrary
contents (`junk`).
-/
import Verif.Model.ApexSh
import Verif.Model.XFloat

namespace Verif.Qd

open Verif.Apex Verif.Geo Verif

/-- Contents of a coefficient file, apexsh.f90 lines 175-178: `epochgrid`, the dimensions and `coeff0(iterm,iepoch,icoord)`. -/
structure Table (K : Type) where
  grid : List K
  nmax : Nat
  mmax : Nat
  lmax : Nat
  nterm : Nat
  coef : Nat → Nat → Nat → K

/-- Variables of `apxshmodule` (apexsh.f90 lines 117-157) and the saved variables of `loadapxsh`
(lines 167-168) used by the evaluation of the quasi-dipole coordinates. -/
structure Mod (F K : Type) where
  loadflag : Bool
  fileLast : Option F
  epochLast : X K
  table : Table K
  qx : Vec K
  qy : Vec K
  qz : Vec K
  altlast : K
  col : Collapsed K
  work : Work K

section
variable {F K : Type} [DecidableEq F] [Field K] [LinearOrder K]

/-- Initial values of the module: nothing is loaded (lines 156, 167-168). -/
def Mod.init (junk : Nat → K) : Mod F K :=
  ⟨true, none, .fin (-999), ⟨[], 0, 0, 0, 0, fun _ _ _ => 0⟩, ⟨0, junk⟩, ⟨0, junk⟩, ⟨0, junk⟩, junk 0,
    ⟨junk 0, ⟨0, junk⟩, ⟨0, junk⟩, ⟨0, junk⟩⟩,
    ⟨⟨⟨0, 0, fun _ => junk⟩, ⟨0, 0, fun _ => junk⟩, ⟨0, 0, fun _ => junk⟩⟩, ⟨⟨0, junk⟩, ⟨0, junk⟩, ⟨0, junk⟩⟩⟩⟩

/-- `allocatearrays`, apexsh.f90 lines 222-288. -/
def allocate (junk : Nat → K) (t : Table K) (m : Mod F K) : Mod F K :=
  let nsh := ntermsh t.nmax t.mmax
  { m with
    table := t
    qx := ⟨t.nterm, junk⟩, qy := ⟨t.nterm, junk⟩, qz := ⟨t.nterm, junk⟩
    col := ⟨m.col.h, ⟨nsh, junk⟩, ⟨nsh, junk⟩, ⟨nsh, junk⟩⟩
    work := ⟨⟨⟨t.nmax, t.mmax, fun _ _ => 0⟩, ⟨t.nmax, t.mmax, fun _ _ => 0⟩, ⟨t.nmax, t.mmax, fun _ _ => 0⟩⟩,
      ⟨⟨nsh, junk⟩, ⟨nsh, junk⟩, ⟨nsh, junk⟩⟩⟩ }

/-- Epoch limited to the range of the grid, lines 185-186. -/
def clampEpoch (grid : List K) (e : X K) : Option (X K) := do
  let g0 ← grid.head?
  let gl ← grid.getLast?
  let e := if X.lt e (.fin g0) then .fin g0 else e
  some (if X.lt (.fin gl) e then .fin gl else e)

/-- Search of the epoch interval from the index downward, lines 193-196. -/
def bracket (grid : List K) (e : K) : Nat → Option Nat
  | 0 => grid[0]?.map (fun _ => 0)
  | i + 1 => do
    let g ← grid[i + 1]?
    if e ≤ g then bracket grid e i else some (i + 1)

/-- Indices `iepoch0`, `iepoch1` and the weight `we0`, lines 187-200.  A NaN epoch would take
`iepoch1 = nepoch`, out of the bounds. -/
def weights (grid : List K) (e : X K) : Option (Nat × Nat × K) := do
  let e ← clampEpoch grid e
  if grid.length = 1 then some (0, 0, 1)
  else match e with
    | .fin e => do
      let i ← bracket grid e (grid.length - 1)
      let g0 ← grid[i]?
      let g1 ← grid[i + 1]?
      some (i, i + 1, (g1 - e) / (g1 - g0))
    | _ => none

/-- Coefficients of one coordinate interpolated to the epoch, lines 201-206 (`gcoeff0` is not used
and not modelled). -/
def blend (t : Table K) (w : Nat × Nat × K) (icoord : Nat) : Vec K :=
  ⟨t.nterm, fun i => w.2.2 * t.coef i w.1 icoord + (1 - w.2.2) * t.coef i w.2.1 icoord⟩

/-- Lines 184-209. -/
def interpolate (m : Mod F K) (e : X K) : Option (Mod F K) :=
  (weights m.table.grid e).map (fun w =>
    { m with qx := blend m.table w 0, qy := blend m.table w 1, qz := blend m.table w 2, altlast := -999 })

/-- `loadapxsh`, apexsh.f90 lines 161-218. -/
def loadapxsh (fs : F → Option (Table K)) (junk : Nat → K) (m : Mod F K) (file : F) (epoch : X K) :
    Option (Mod F K) := do
  let reload := decide (m.fileLast ≠ some file) || m.loadflag
  let m ← if reload then (fs file).map (fun t => allocate junk t m) else some m
  let m ← if !X.eq epoch m.epochLast || reload then interpolate m epoch else some m
  some { m with loadflag := false, fileLast := some file, epochLast := epoch }

/-- `apxg2q`, apexsh.f90 lines 292-405.  Without coefficients the outputs are left undefined: `none`. -/
def apxg2q (L : Libm K) (p00 : K) (m : Mod F K) (glat glon alt : K) (vec : Bool) : Option (Qd K × Mod F K) :=
  if m.loadflag then none
  else do
    let m ← if alt ≠ m.altlast then
        (collapsed m.qx m.qy m.qz (ntermsh m.table.nmax m.table.mmax) m.table.lmax alt).map
          (fun c => { m with col := c, altlast := alt })
      else some m
    let r ← evalPoint L p00 m.table.nmax m.table.mmax m.work m.col glat glon vec
    some (r.1, { m with work := r.2 })

/-- `CONVRT` with the flag 4: geocentric latitude [deg] and radius [km] to the geodetic latitude and
altitude; apex.f90 lines 704-774. -/
def convrt4 (L : Libm K) (gclat rkm : K) : K × K :=
  let rtod : K := 572957795130823 / 10 ^ 13
  let dtor : K := 1745329251994330 / 10 ^ 17
  let rep : K := 6356752 / 1000
  let rq : K := 6378137 / 1000
  let e2 : K := 1 - (rep / rq) ^ 2
  let e4 := e2 * e2
  let e6 := e4 * e2
  let e8 := e4 * e4
  let a21 := (512 * e2 + 128 * e4 + 60 * e6 + 35 * e8) / 1024
  let a22 := (e6 + e8) / 32
  let a23 := -3 * (4 * e6 + 3 * e8) / 256
  let a41 := -(64 * e4 + 48 * e6 + 35 * e8) / 1024
  let a42 := (4 * e4 + 2 * e6 + e8) / 16
  let a43 := 15 * e8 / 256
  let a44 := -e8 / 16
  let a61 := 3 * (4 * e6 + 5 * e8) / 1024
  let a62 := -3 * (e6 + e8) / 32
  let a63 := 35 * (4 * e6 + 3 * e8) / 768
  let a81 := -5 * e8 / 2048
  let a82 := 64 * e8 / 2048
  let a83 := -252 * e8 / 2048
  let a84 := 320 * e8 / 2048
  let scl := L.sin (gclat * dtor)
  let ri := rq / rkm
  let a2 := ri * (a21 + ri * (a22 + ri * a23))
  let a4 := ri * (a41 + ri * (a42 + ri * (a43 + ri * a44)))
  let a6 := ri * (a61 + ri * (a62 + ri * a63))
  let a8 := ri * (a81 + ri * (a82 + ri * (a83 + ri * a84)))
  let ccl := L.sqrt (1 - scl * scl)
  let s2cl := 2 * scl * ccl
  let c2cl := 2 * ccl * ccl - 1
  let s4cl := 2 * s2cl * c2cl
  let c4cl := 2 * c2cl * c2cl - 1
  let s8cl := 2 * s4cl * c4cl
  let s6cl := s2cl * c4cl + c2cl * s4cl
  let dltcl := s2cl * a2 + s4cl * a4 + s6cl * a6 + s8cl * a8
  let gdlat := dltcl * rtod + gclat
  let sgl := L.sin (gdlat * dtor)
  (gdlat, rkm * L.cos dltcl - rq * L.sqrt (1 - e2 * sgl * sgl))

/-- One point of the input: decimal year, geocentric radius [km], latitude and longitude [deg]. -/
structure Pt (K : Type) where
  time : X K
  rad : K
  lat : K
  lon : K

/-- `abs(x)`. -/
def xabs : X K → X K
  | .nan => .nan
  | .ninf => .pinf
  | .pinf => .pinf
  | .fin a => .fin |a|

/-- Conversion of a time to single precision. -/
def snglX (sngl : K → K) : X K → X K
  | .fin a => .fin (sngl a)
  | x => x

/-- `epoch_limit`, eval_qdlatlon.f90 lines 76 and 112. -/
def epochLimit : K := 1 / (36525 / 100)

/-- Initial `epoch_old`, lines 78 and 114. -/
def epochNone : X K := .fin (-99999 / 10)

/-- Parameters of the environment: libm, literal `p00`, conversion to single precision, files, contents
of the allocated memory. -/
structure Env (F K : Type) where
  L : Libm K
  p00 : K
  sngl : K → K
  fs : F → Option (Table K)
  junk : Nat → K

/-- Whether the coefficients are loaded for the epoch, eval_qdlatlon.f90 line 83. -/
def changed (epoch old : X K) : Bool := X.lt (.fin epochLimit) (xabs (X.sub epoch old))

/-- One pass of the loop, eval_qdlatlon.f90 lines 80-95 and 116-136: the state is the module and `epoch_old`. -/
def step (E : Env F K) (file : F) (vec : Bool) (s : Mod F K × X K) (p : Pt K) : Option (Qd K × Mod F K × X K) := do
  let epoch := snglX E.sngl p.time
  let s ← if changed epoch s.2 then (loadapxsh E.fs E.junk s.1 file epoch).map (fun m => (m, epoch)) else some s
  let g := convrt4 E.L (E.sngl p.lat) (E.sngl p.rad)
  let r ← apxg2q E.L E.p00 s.1 g.1 (E.sngl p.lon) g.2 vec
  some (r.1, r.2, s.2)

/-- The loop over the points. -/
def loop (E : Env F K) (file : F) (vec : Bool) : List (Pt K) → Mod F K × X K → Option (List (Qd K) × Mod F K)
  | [], s => some ([], s.1)
  | p :: ps, s => do
    let r ← step E file vec s p
    let q ← loop E file vec ps r.2
    some (r.1 :: q.1, q.2)

/-- `eval_qdlatlon` and `eval_qdlatlonvb` (`vec`), eval_qdlatlon.f90 lines 66-139.
The file name is taken as it is: the argument of the second routine is declared with 256 bytes
only (line 111), longer names are not modelled. -/
def evalQd (E : Env F K) (file : F) (vec : Bool) (pts : List (Pt K)) (m : Mod F K) : Option (List (Qd K) × Mod F K) :=
  loop E file vec pts (m, epochNone)

end

end Verif.Qd
