/-
Model of the 2D Fourier series with the rounding of each arithmetic operation.
Source: eoxmagmod/eoxmagmod/include/fourier_series.h, eoxmagmod/eoxmagmod/pymm_fourier2d.h

`rnd` is applied to the result of every operation with doubles, in the order of the C
expressions (no contraction to fused operations, no excess precision); the change of the sign
is exact.  With `rnd = id` these are the functions of Model/Fourier.lean, from which the parts
without arithmetic (`fs_cos_sin_neg`, `_fourier2d_init`) are taken.
-/
import Verif.Model.FloatSeries

namespace Verif.FloatFourier

open Verif.Buf Verif.Fourier Verif.FloatSeries

variable {K : Type} [Field K] (rnd : K → K)

/-- `fs_cos_sin_2d`, fourier_series.h lines 190-212. -/
def fsCosSin2dF (b cs1 cs2 : List (K × K)) (n m : Nat) : Option (List (K × K)) :=
  forBelow 0 n (fun i b =>
    let istride := i * m
    forBelow 0 m (fun j b => do
      let idx := istride + j
      let p ← rd cs1 i
      let q ← rd cs2 j
      wr b idx (rnd (rnd (p.1 * q.1) - rnd (p.2 * q.2)), rnd (rnd (p.1 * q.2) + rnd (p.2 * q.1)))) b) b

/-- `fs_eval_2d`, fourier_series.h lines 230-245. -/
def fsEval2dF (ab cs : List (K × K)) (n m : Nat) : Option K :=
  forBelow 0 (n * m) (fun i f => do
    let a ← rd ab i
    let c ← rd cs i
    return rnd (f + rnd (rnd (a.1 * c.1) + rnd (a.2 * c.2)))) 0

/-- `_fourier2d_cossin`, pymm_fourier2d.h lines 398-427. -/
def f2dCosSinF (cos sin : K → K) (f : F2D K) (t1 t2 : K) : Option (F2D K) := do
  let tmp ← fsCosSinF rnd cos sin f.tmp (max f.min1.natAbs f.max1.natAbs) (rnd (t1 * f.scale1))
  let cs1 ← fsCosSinNeg f.cs1 tmp f.min1 f.max1
  let tmp ← fsCosSinF rnd cos sin tmp (max f.min2.natAbs f.max2.natAbs) (rnd (t2 * f.scale2))
  let cs2 ← fsCosSinNeg f.cs2 tmp f.min2 f.max2
  let cs12 ← fsCosSin2dF rnd f.cs12 cs1 cs2 (f.max1 - f.min1 + 1).toNat (f.max2 - f.min2 + 1).toNat
  return { f with tmp, cs1, cs2, cs12 }

/-- `_fourier2d_eval`, pymm_fourier2d.h lines 387-394. -/
def f2dEvalF (f : F2D K) (ab : List (K × K)) : Option K :=
  fsEval2dF rnd ab f.cs12 (f.max1 - f.min1 + 1).toNat (f.max2 - f.min2 + 1).toNat

/-- `_fourier2d_eval_coeff` with `_fourier2d_eval_coeff_single_time` on the flat lists of
the pairs of times and of the coefficient matrices, pymm_fourier2d.h lines 236-301. -/
def f2dLoopF (cos sin : K → K) (abs : List (List (K × K))) : F2D K → List (K × K) →
    Option (List (List K))
  | _, [] => some []
  | f, (t1, t2) :: l => do
    let f1 ← f2dCosSinF rnd cos sin f t1 t2
    let c ← abs.mapM (f2dEvalF rnd f1)
    let rest ← f2dLoopF cos sin abs f1 l
    return c :: rest

/-- `fourier2d`, pymm_fourier2d.h lines 104-219, for the flat lists of the times and of
`[size1, size2, 2]` matrices stored in C order. -/
def fourier2dF (cos sin : K → K) (junk : Nat → K × K) (times : List (K × K))
    (abs : List (List (K × K))) (size1 size2 : Nat) (min1 min2 : Int) (scale1 scale2 : K) :
    Option (List (List K)) :=
  f2dLoopF rnd cos sin abs (f2dInit junk min1 size1 min2 size2 scale1 scale2) times

end Verif.FloatFourier
