/-
Model of the cosine and sine series.
Source: eoxmagmod/eoxmagmod/include/fourier_series.h, pymm_loncossin.h, pymm_fourier2d.h

Doubles are the elements of a field `K`; `cos`, `sin` of libm are parameters.
Buffers are lists of the allocated length with arbitrary content.  C `abs` (an `int`
function applied to `ptrdiff_t`) is the absolute value: the degrees are assumed to be
below 2^31.
-/
import Verif.Model.Buffer
import Mathlib.Algebra.Field.Defs

namespace Verif.Fourier

open Verif.Buf

variable {K : Type} [Field K]

/-- `fs_cos_sin`, fourier_series.h lines 54-86. -/
def fsCosSin (cos sin : K → K) (b : List (K × K)) (n : Nat) (x : K) : Option (List (K × K)) := do
  let b ← wr b 0 (1, 0)
  if n ≥ 1 then
    let cosx := cos x
    let sinx := sin x
    let b ← wr b 1 (cosx, sinx)
    let s ← forTo 2 n (fun i s => do
      let cosNew := s.2.1 * cosx - s.2.2 * sinx
      let sinNew := s.2.1 * sinx + s.2.2 * cosx
      let b ← wr s.1 i (cosNew, sinNew)
      return (b, cosNew, sinNew)) (b, cosx, sinx)
    return s.1
  else
    return b

/-- `fs_cos_sin_ref`, fourier_series.h lines 106-119. -/
def fsCosSinRef (cos sin : K → K) (b : List (K × K)) (n : Nat) (t : K) : Option (List (K × K)) :=
  forTo 0 n (fun i b => wr b i (cos ((i : K) * t), sin ((i : K) * t))) b

/-- `fs_cos_sin_neg`, fourier_series.h lines 146-165: the pass `k` of the loop has
`i = n_min + k`. -/
def fsCosSinNeg (b pos : List (K × K)) (nmin nmax : Int) : Option (List (K × K)) :=
  forUp (nmax - nmin + 1).toNat 0 (fun k b => do
    let i : Int := nmin + k
    let v ← rd pos i.natAbs
    wrI b (i - nmin) (v.1, if i < 0 then -v.2 else v.2)) b

/-- `fs_cos_sin_2d`, fourier_series.h lines 190-212. -/
def fsCosSin2d (b cs1 cs2 : List (K × K)) (n m : Nat) : Option (List (K × K)) :=
  forBelow 0 n (fun i b =>
    let istride := i * m
    forBelow 0 m (fun j b => do
      let idx := istride + j
      let p ← rd cs1 i
      let q ← rd cs2 j
      wr b idx (p.1 * q.1 - p.2 * q.2, p.1 * q.2 + p.2 * q.1)) b) b

/-- `fs_eval_2d`, fourier_series.h lines 230-245. -/
def fsEval2d (ab cs : List (K × K)) (n m : Nat) : Option K :=
  forBelow 0 (n * m) (fun i f => do
    let a ← rd ab i
    let c ← rd cs i
    return f + (a.1 * c.1 + a.2 * c.2)) 0

/-- `loncossin` for one longitude, pymm_loncossin.h lines 55-156: `none` outside is
`ValueError` (line 72), `none` inside an access outside of the output array of `degree+1`
rows, whose content `b` is arbitrary.  `rad` is the constant `DG2RAD`. -/
def loncossin (cos sin : K → K) (rad : K) (b : List (K × K)) (lon : K) (degree : Int)
    (fastAlg : Bool) : Option (Option (List (K × K))) :=
  if degree < 0 then none
  else some ((if fastAlg then fsCosSin cos sin else fsCosSinRef cos sin) b degree.toNat (lon * rad))

/-- `FOURIER_2D`, pymm_fourier2d.h lines 47-59. -/
structure F2D (K : Type) where
  min1 : Int
  max1 : Int
  min2 : Int
  max2 : Int
  scale1 : K
  scale2 : K
  tmp : List (K × K)
  cs1 : List (K × K)
  cs2 : List (K × K)
  cs12 : List (K × K)

/-- Size of the temporary buffer, pymm_fourier2d.h lines 347-352, line by line. -/
def maxAbsDegree (min1 max1 _min2 max2 : Int) : Int :=
  let d : Int := 1
  let d := max d min1.natAbs
  let d := max d max1.natAbs
  let d := max d min1.natAbs
  let d := max d max2.natAbs
  d

/-- `_fourier2d_init`, pymm_fourier2d.h lines 324-384; `junk` is the content of
uninitialised memory.  Allocation failures are not modelled. -/
def f2dInit (junk : Nat → K × K) (min1 size1 min2 size2 : Int) (scale1 scale2 : K) : F2D K :=
  let max1 := min1 + size1 - 1
  let max2 := min2 + size2 - 1
  let alloc := fun (n : Int) => (List.range n.toNat).map junk
  { min1, max1, min2, max2, scale1, scale2
    tmp := alloc (maxAbsDegree min1 max1 min2 max2 + 1)
    cs1 := alloc size1
    cs2 := alloc size2
    cs12 := alloc (size1 * size2) }

/-- `_fourier2d_cossin`, pymm_fourier2d.h lines 398-427. -/
def f2dCosSin (cos sin : K → K) (f : F2D K) (t1 t2 : K) : Option (F2D K) := do
  let tmp ← fsCosSin cos sin f.tmp (max f.min1.natAbs f.max1.natAbs) (t1 * f.scale1)
  let cs1 ← fsCosSinNeg f.cs1 tmp f.min1 f.max1
  let tmp ← fsCosSin cos sin tmp (max f.min2.natAbs f.max2.natAbs) (t2 * f.scale2)
  let cs2 ← fsCosSinNeg f.cs2 tmp f.min2 f.max2
  let cs12 ← fsCosSin2d f.cs12 cs1 cs2 (f.max1 - f.min1 + 1).toNat (f.max2 - f.min2 + 1).toNat
  return { f with tmp, cs1, cs2, cs12 }

/-- `_fourier2d_eval`, pymm_fourier2d.h lines 387-394. -/
def f2dEval (f : F2D K) (ab : List (K × K)) : Option K :=
  fsEval2d ab f.cs12 (f.max1 - f.min1 + 1).toNat (f.max2 - f.min2 + 1).toNat

/-- `_fourier2d_eval_coeff` with `_fourier2d_eval_coeff_single_time` on the flat lists of
the pairs of times and of the coefficient matrices, pymm_fourier2d.h lines 236-301. -/
def f2dLoop (cos sin : K → K) (abs : List (List (K × K))) : F2D K → List (K × K) →
    Option (List (List K))
  | _, [] => some []
  | f, (t1, t2) :: l => do
    let f1 ← f2dCosSin cos sin f t1 t2
    let c ← abs.mapM (f2dEval f1)
    let rest ← f2dLoop cos sin abs f1 l
    return c :: rest

/-- `fourier2d`, pymm_fourier2d.h lines 104-219, for the flat lists of the times and of
`[size1, size2, 2]` matrices stored in C order. -/
def fourier2d (cos sin : K → K) (junk : Nat → K × K) (times : List (K × K))
    (abs : List (List (K × K))) (size1 size2 : Nat) (min1 min2 : Int) (scale1 scale2 : K) :
    Option (List (List K)) :=
  f2dLoop cos sin abs (f2dInit junk min1 size1 min2 size2 scale1 scale2) times

end Verif.Fourier
