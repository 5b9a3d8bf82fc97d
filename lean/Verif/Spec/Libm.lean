/-
The real functions which the functions of libm approximate.
-/
import Verif.Model.Geo
import Mathlib.Analysis.SpecialFunctions.Complex.Arg
import Mathlib.Analysis.SpecialFunctions.Trigonometric.Inverse
import Mathlib.Analysis.SpecialFunctions.Pow.Real

namespace Verif.Spec

open Verif.Geo

/-- `atan2(y, x)`: the angle of the point `(x, y)` in (-π, π], 0 for the origin. -/
noncomputable def atan2 (y x : ℝ) : ℝ := Complex.arg ⟨x, y⟩

/-- `copysign(x, y)` (without the negative zero). -/
noncomputable def copysign (x y : ℝ) : ℝ := if y < 0 then -|x| else |x|

/-- Exact real functions. -/
noncomputable def libm : Libm ℝ where
  pi := Real.pi
  sin := Real.sin
  cos := Real.cos
  asin := Real.arcsin
  sqrt := Real.sqrt
  fabs := fun x => |x|
  atan2 := atan2
  pow := fun x y => x ^ y
  copysign := copysign

end Verif.Spec
