/-
Properties C33-C38: vector rotations, dipole frame, magnetic universal time, inclination
and declination.
-/
import Verif.Props.Geo
import Mathlib.Analysis.SpecialFunctions.Trigonometric.Deriv
import Mathlib.Analysis.SpecialFunctions.Sqrt
import Mathlib.Tactic.FieldSimp
import Mathlib.Tactic.LinearCombination

set_option linter.unusedSectionVars false

namespace Verif.Props

open Verif.Geo Verif.Spec

/-! ### Specification: vectors of three numbers -/

/-- Square of the Euclidean length. -/
def len2 (v : V3 ℝ) : ℝ := v.x ^ 2 + v.y ^ 2 + v.z ^ 2

/-- Sum of two vectors. -/
def vadd (v w : V3 ℝ) : V3 ℝ := ⟨v.x + w.x, v.y + w.y, v.z + w.z⟩

/-- Multiple of a vector. -/
def vsmul (c : ℝ) (v : V3 ℝ) : V3 ℝ := ⟨c * v.x, c * v.y, c * v.z⟩

/-- Unit vectors: north, east, up. -/
def north : V3 ℝ := ⟨1, 0, 0⟩
def east : V3 ℝ := ⟨0, 1, 0⟩
def up : V3 ℝ := ⟨0, 0, 1⟩

/-- Derivative of a curve in space. -/
def HasDeriv3 (f : ℝ → V3 ℝ) (d : V3 ℝ) (t : ℝ) : Prop :=
  HasDerivAt (fun s => (f s).x) d.x t ∧ HasDerivAt (fun s => (f s).y) d.y t ∧
    HasDerivAt (fun s => (f s).z) d.z t

theorem V3.ext' {v w : V3 ℝ} (hx : v.x = w.x) (hy : v.y = w.y) (hz : v.z = w.z) : v = w := by
  cases v; cases w; simp_all

/-! ### C33 -/

/-- **C33**, lengths. -/
theorem C33_length (v : V3 ℝ) (lat lon : ℝ) :
    len2 (vrotSph2geod libm v lat) = len2 v ∧ len2 (vrotSph2cart libm v lat lon) = len2 v ∧
      len2 (vrotCart2sph libm v lat lon) = len2 v := by
  have h : ∀ x : ℝ, libm.sin x ^ 2 + libm.cos x ^ 2 = 1 := Real.sin_sq_add_cos_sq
  refine ⟨?_, ?_, ?_⟩
  · simp only [len2, vrotSph2geod, rot2d]
    linear_combination (v.x ^ 2 + v.z ^ 2) * h (-dg2rad libm * lat)
  · simp only [len2, vrotSph2cart, rot2d]
    linear_combination
      ((v.z * libm.cos (dg2rad libm * lat) - v.x * libm.sin (dg2rad libm * lat)) ^ 2 + v.y ^ 2) *
        h (dg2rad libm * lon) + (v.x ^ 2 + v.z ^ 2) * h (dg2rad libm * lat)
  · simp only [len2, vrotCart2sph, rot2d]
    linear_combination (v.x ^ 2 + v.y ^ 2) * h (-dg2rad libm * lon) +
      ((v.x * libm.cos (-dg2rad libm * lon) - v.y * libm.sin (-dg2rad libm * lon)) ^ 2 + v.z ^ 2) *
        h (-dg2rad libm * lat)

theorem vnorm_len2 (v : V3 ℝ) : vnorm libm v = Real.sqrt (len2 v) := by
  simp only [vnorm, len2, libm, pow_two]

/-- **C33**, the two rotations between the spherical and the Cartesian frame are mutually
inverse. -/
theorem C33_inverse (v : V3 ℝ) (lat lon : ℝ) :
    vrotCart2sph libm (vrotSph2cart libm v lat lon) lat lon = v ∧
      vrotSph2cart libm (vrotCart2sph libm v lat lon) lat lon = v := by
  have h : ∀ x : ℝ, libm.sin x ^ 2 + libm.cos x ^ 2 = 1 := Real.sin_sq_add_cos_sq
  have hs : ∀ x : ℝ, libm.sin (-dg2rad libm * x) = -libm.sin (dg2rad libm * x) := by
    intro x; rw [neg_mul]; exact Real.sin_neg _
  have hc : ∀ x : ℝ, libm.cos (-dg2rad libm * x) = libm.cos (dg2rad libm * x) := by
    intro x; rw [neg_mul]; exact Real.cos_neg _
  have h1 := h (dg2rad libm * lat)
  have h2 := h (dg2rad libm * lon)
  obtain ⟨x, y, z⟩ := v
  constructor
  · refine V3.ext' ?_ ?_ ?_ <;> simp only [vrotSph2cart, vrotCart2sph, rot2d, hs, hc] <;>
      generalize libm.sin (dg2rad libm * lat) = s at * <;>
      generalize libm.cos (dg2rad libm * lat) = c at * <;>
      generalize libm.sin (dg2rad libm * lon) = t at * <;>
      generalize libm.cos (dg2rad libm * lon) = d at *
    · linear_combination x * h1 - s * (z * c - x * s) * h2
    · linear_combination y * h2
    · linear_combination z * h1 + c * (z * c - x * s) * h2
  · refine V3.ext' ?_ ?_ ?_ <;> simp only [vrotSph2cart, vrotCart2sph, rot2d, hs, hc] <;>
      generalize libm.sin (dg2rad libm * lat) = s at * <;>
      generalize libm.cos (dg2rad libm * lat) = c at * <;>
      generalize libm.sin (dg2rad libm * lon) = t at * <;>
      generalize libm.cos (dg2rad libm * lon) = d at *
    · linear_combination (d * (x * d + y * t)) * h1 + x * h2
    · linear_combination (t * (x * d + y * t)) * h1 + y * h2
    · linear_combination z * h1

/-- **C33**, the rotation by `-dlat` undoes the rotation by `dlat`; rotations add up. -/
theorem C33_geod (v : V3 ℝ) (a b : ℝ) :
    vrotSph2geod libm (vrotSph2geod libm v a) (-a) = v ∧
      vrotSph2geod libm (vrotSph2geod libm v a) b = vrotSph2geod libm v (a + b) := by
  have add : ∀ a b : ℝ, vrotSph2geod libm (vrotSph2geod libm v a) b = vrotSph2geod libm v (a + b) := by
    intro a b
    have e : -dg2rad libm * (a + b) = -dg2rad libm * a + -dg2rad libm * b := by ring
    have hs : libm.sin (-dg2rad libm * (a + b)) = _ := (congrArg Real.sin e).trans (Real.sin_add _ _)
    have hc : libm.cos (-dg2rad libm * (a + b)) = _ := (congrArg Real.cos e).trans (Real.cos_add _ _)
    refine V3.ext' ?_ ?_ ?_ <;> simp only [vrotSph2geod, rot2d, hs, hc] <;> simp only [libm] <;> ring
  refine ⟨?_, add a b⟩
  rw [add, add_neg_cancel]
  refine V3.ext' ?_ ?_ ?_ <;> simp [vrotSph2geod, rot2d, libm]

/-- **C33**, `vrotate` between any two systems and back is the identity. -/
theorem C33_vrotate (i o : CT) (ci co v : V3 ℝ) :
    (vrotate libm v (some ci) (some co) (code i) (code o)).bind
      (fun w => vrotate libm w (some co) (some ci) (code o) (code i)) = some v := by
  have h1 := fun a : ℝ => (C33_geod v a (-a)).1
  have e : ∀ a b : ℝ, a - b = -(b - a) := by intro a b; ring
  cases i <;> cases o <;> simp [vrotate, code, (C33_inverse v _ _).1, (C33_inverse v _ _).2]
  · rw [e ci.x co.x, h1]
  · rw [e ci.x co.x, h1]

/-- **C33**, `vrotate` through a third system equals the direct rotation, when the
longitudes are equal. -/
theorem C33_coherent (i j k : CT) (c : CT → V3 ℝ) (v : V3 ℝ) (hlon : (c .geodetic).y = (c .spherical).y) :
    (vrotate libm v (some (c i)) (some (c j)) (code i) (code j)).bind
      (fun w => vrotate libm w (some (c j)) (some (c k)) (code j) (code k)) =
    vrotate libm v (some (c i)) (some (c k)) (code i) (code k) := by
  -- rotation to the Cartesian frame
  have key : ∀ (v : V3 ℝ) (a b l : ℝ), vrotSph2cart libm (vrotSph2geod libm v (b - a)) b l =
      vrotSph2cart libm v a l := by
    intro v a b l
    have e : dg2rad libm * a = dg2rad libm * b + -dg2rad libm * (b - a) := by ring
    have hs : libm.sin (dg2rad libm * a) = _ := (congrArg Real.sin e).trans (Real.sin_add _ _)
    have hc : libm.cos (dg2rad libm * a) = _ := (congrArg Real.cos e).trans (Real.cos_add _ _)
    refine V3.ext' ?_ ?_ ?_ <;> simp only [vrotSph2geod, vrotSph2cart, rot2d, hs, hc] <;>
      simp only [libm] <;> ring
  have key2 : ∀ (v : V3 ℝ) (a b l : ℝ), vrotSph2geod libm (vrotCart2sph libm v a l) (b - a) =
      vrotCart2sph libm v b l := by
    intro v a b l
    have := key (vrotCart2sph libm v a l) a b l
    rw [(C33_inverse v a l).2] at this
    rw [← (C33_inverse (vrotSph2geod libm (vrotCart2sph libm v a l) (b - a)) b l).1, this]
  have key3 := C33_geod v
  have key4 : ∀ (a b l : ℝ), vrotCart2sph libm (vrotSph2cart libm v a l) b l =
      vrotSph2geod libm v (b - a) := by
    intro a b l
    rw [← key v a b l, (C33_inverse _ _ _).1]
  cases i <;> cases j <;> cases k <;>
    simp [vrotate, code, (C33_inverse v _ _).1, (C33_inverse v _ _).2, hlon, key, key2, key4]
  · have := (key3 ((c .spherical).x - (c .geodetic).x) 0).1
    rwa [neg_sub] at this
  · have := (key3 ((c .geodetic).x - (c .spherical).x) 0).1
    rwa [neg_sub] at this

/-- `ValueError` for the unknown codes. -/
theorem C33_codes (v : V3 ℝ) (ci co : Option (V3 ℝ)) (a b : Int) (hab : a ≠ b)
    (h : ¬(0 ≤ a ∧ a ≤ 2 ∧ 0 ≤ b ∧ b ≤ 2)) : vrotate libm v ci co a b = none := by
  unfold vrotate
  split_ifs <;> first | rfl | omega

/-! ### C34 -/

/-- A vector is the sum of its components. -/
theorem C34_components (v : V3 ℝ) (lat lon : ℝ) :
    vrotSph2cart libm v lat lon = vadd (vsmul v.x (vrotSph2cart libm north lat lon))
      (vadd (vsmul v.y (vrotSph2cart libm east lat lon)) (vsmul v.z (vrotSph2cart libm up lat lon))) := by
  refine V3.ext' ?_ ?_ ?_ <;> simp only [vrotSph2cart, rot2d, vadd, vsmul, north, east, up] <;> ring

theorem deriv_sin (c t : ℝ) : HasDerivAt (fun s => libm.sin (c * s)) (c * libm.cos (c * t)) t :=
  ((Real.hasDerivAt_sin (c * t)).comp t ((hasDerivAt_id t).const_mul c)).congr_deriv (by
    simp only [libm]; ring)

theorem deriv_cos (c t : ℝ) : HasDerivAt (fun s => libm.cos (c * s)) (-(c * libm.sin (c * t))) t :=
  ((Real.hasDerivAt_cos (c * t)).comp t ((hasDerivAt_id t).const_mul c)).congr_deriv (by
    simp only [libm]; ring)

/-- **C34**, spherical coordinates: the vectors north, east and up are mapped to the
derivatives of the Cartesian position with respect to the latitude, longitude (degrees) and
radius, divided by their lengths. -/
theorem C34_spherical (lat lon r : ℝ) :
    HasDeriv3 (fun t => convSphCart libm ⟨t, lon, r⟩)
      (vsmul (dg2rad libm * r) (vrotSph2cart libm north lat lon)) lat ∧
    HasDeriv3 (fun t => convSphCart libm ⟨lat, t, r⟩)
      (vsmul (dg2rad libm * (r * Real.cos (dg2rad libm * lat))) (vrotSph2cart libm east lat lon)) lon ∧
    HasDeriv3 (fun t => convSphCart libm ⟨lat, lon, t⟩) (vrotSph2cart libm up lat lon) r := by
  have s := deriv_sin (dg2rad libm)
  have c := deriv_cos (dg2rad libm)
  have i := hasDerivAt_id (𝕜 := ℝ) r
  have hcos : Real.cos (dg2rad libm * lat) = libm.cos (dg2rad libm * lat) := rfl
  rw [hcos]
  unfold HasDeriv3 convSphCart sph2cart vsmul vrotSph2cart rot2d north east up
  dsimp only
  refine ⟨⟨?_, ?_, ?_⟩, ⟨?_, ?_, ?_⟩, ⟨?_, ?_, ?_⟩⟩
  · refine (((c lat).const_mul r).mul_const _).congr_deriv ?_; ring
  · refine (((c lat).const_mul r).mul_const _).congr_deriv ?_; ring
  · refine ((s lat).const_mul r).congr_deriv ?_; ring
  · refine ((c lon).const_mul _).congr_deriv ?_; ring
  · refine ((s lon).const_mul _).congr_deriv ?_; ring
  · refine (hasDerivAt_const _ _).congr_deriv ?_; ring
  · refine ((i.mul_const _).mul_const _).congr_deriv ?_; ring
  · refine ((i.mul_const _).mul_const _).congr_deriv ?_; ring
  · refine (i.mul_const _).congr_deriv ?_; ring

/-- Radius of curvature of the meridian. -/
noncomputable def meridianRadius (φ : ℝ) : ℝ :=
  wgs84A * (1 - wgs84Eps2) / (1 - wgs84Eps2 * Real.sin φ ^ 2) ^ (3 / 2 : ℝ)

theorem ellipse_pos (s : ℝ) (h : |s| ≤ 1) : 0 < 1 - wgs84Eps2 * s * s := by
  have h1 := eps2_pos
  have h2 := eps2_lt
  have : s * s ≤ 1 := by
    rw [← abs_mul_abs_self]
    nlinarith [abs_nonneg s]
  nlinarith

/-- **C34**, geodetic coordinates: the same vectors taken at the geodetic latitude are the
normalised derivatives of the Cartesian position with respect to the geodetic latitude,
longitude and height. -/
theorem C34_geodetic (lat lon h : ℝ) :
    HasDeriv3 (fun t => convGeodCart libm ⟨t, lon, h⟩)
      (vsmul (dg2rad libm * (meridianRadius (dg2rad libm * lat) + h)) (vrotSph2cart libm north lat lon)) lat ∧
    HasDeriv3 (fun t => convGeodCart libm ⟨lat, t, h⟩)
      (vsmul (dg2rad libm * ((curv (dg2rad libm * lat) + h) * Real.cos (dg2rad libm * lat)))
        (vrotSph2cart libm east lat lon)) lon ∧
    HasDeriv3 (fun t => convGeodCart libm ⟨lat, lon, t⟩) (vrotSph2cart libm up lat lon) h := by
  have s := deriv_sin (dg2rad libm)
  have c := deriv_cos (dg2rad libm)
  have i := hasDerivAt_id (𝕜 := ℝ) h
  have hcos : Real.cos (dg2rad libm * lat) = libm.cos (dg2rad libm * lat) := rfl
  -- derivative of the radius of curvature of the prime vertical
  set S := libm.sin (dg2rad libm * lat) with hS
  set C := libm.cos (dg2rad libm * lat) with hC
  have hSC : S ^ 2 + C ^ 2 = 1 := Real.sin_sq_add_cos_sq _
  have hS1 : |S| ≤ 1 := Real.abs_sin_le_one _
  have hW := ellipse_pos S hS1
  set W := 1 - wgs84Eps2 * S * S with hWd
  set q := Real.sqrt W with hq
  have hq0 : 0 < q := Real.sqrt_pos.mpr hW
  have hqq : q ^ 2 = W := Real.sq_sqrt hW.le
  have hM : meridianRadius (dg2rad libm * lat) = wgs84A * (1 - wgs84Eps2) / q ^ 3 := by
    unfold meridianRadius
    have e : 1 - wgs84Eps2 * Real.sin (dg2rad libm * lat) ^ 2 = W := by
      rw [hWd, hS]; simp only [libm]; ring
    rw [e, ← hqq, ← Real.rpow_natCast, ← Real.rpow_mul hq0.le, ← Real.rpow_natCast]
    norm_num
  have hcurv : curv (dg2rad libm * lat) = wgs84A / q := rfl
  have dW : HasDerivAt (fun t => 1 - wgs84Eps2 * libm.sin (dg2rad libm * t) * libm.sin (dg2rad libm * t))
      (-(2 * wgs84Eps2 * S * (dg2rad libm * C))) lat :=
    ((((s lat).const_mul wgs84Eps2).mul (s lat)).const_sub 1).congr_deriv (by ring)
  have dN : HasDerivAt (fun t => wgs84A / libm.sqrt (1 - wgs84Eps2 * libm.sin (dg2rad libm * t) *
      libm.sin (dg2rad libm * t))) (wgs84A * (wgs84Eps2 * S * (dg2rad libm * C)) / q ^ 3) lat := by
    have d1 := dW.sqrt hW.ne'
    have d2 := (d1.inv hq0.ne').const_mul wgs84A
    refine (d2.congr_of_eventuallyEq (Filter.Eventually.of_forall fun t => ?_)).congr_deriv ?_
    · exact div_eq_mul_inv _ _
    · rw [← hWd, ← hq]
      field_simp
  have hqs : libm.sqrt (1 - wgs84Eps2 * libm.sin (dg2rad libm * lat) * libm.sin (dg2rad libm * lat)) = q := rfl
  rw [hcos, hM, hcurv]
  unfold HasDeriv3 convGeodCart geodetic2cart geod2geoc vsmul vrotSph2cart rot2d north east up
  have hee : (1 : ℝ) - wgs84Eps2 * S ^ 2 = q ^ 2 := by rw [hqq, hWd]; ring
  have dp : HasDerivAt (fun t => (wgs84A / libm.sqrt (1 - wgs84Eps2 * libm.sin (dg2rad libm * t) *
      libm.sin (dg2rad libm * t)) + h) * libm.cos (dg2rad libm * t))
      (-(dg2rad libm * (wgs84A * (1 - wgs84Eps2) / q ^ 3 + h) * S)) lat := by
    refine ((dN.add_const h).mul (c lat)).congr_deriv ?_
    rw [hqs, ← hS, ← hC]
    field_simp
    linear_combination dg2rad libm * wgs84A * S * hee + dg2rad libm * wgs84A * S * wgs84Eps2 * hSC
  have dz : HasDerivAt (fun t => (wgs84A / libm.sqrt (1 - wgs84Eps2 * libm.sin (dg2rad libm * t) *
      libm.sin (dg2rad libm * t)) * (1 - wgs84Eps2) + h) * libm.sin (dg2rad libm * t))
      (dg2rad libm * (wgs84A * (1 - wgs84Eps2) / q ^ 3 + h) * C) lat := by
    refine (((dN.mul_const (1 - wgs84Eps2)).add_const h).mul (s lat)).congr_deriv ?_
    rw [hqs, ← hS, ← hC]
    field_simp
    linear_combination (-(dg2rad libm * wgs84A * C * (1 - wgs84Eps2))) * hee
  dsimp only
  refine ⟨⟨?_, ?_, ?_⟩, ⟨?_, ?_, ?_⟩, ⟨?_, ?_, ?_⟩⟩
  · refine (dp.mul_const _).congr_deriv ?_; ring
  · refine (dp.mul_const _).congr_deriv ?_; ring
  · refine dz.congr_deriv ?_; ring
  · rw [hqs]; refine ((c lon).const_mul _).congr_deriv ?_; ring
  · rw [hqs]; refine ((s lon).const_mul _).congr_deriv ?_; ring
  · refine (hasDerivAt_const _ _).congr_deriv ?_; ring
  · rw [hqs]; refine (((i.const_add _).mul_const _).mul_const _).congr_deriv ?_; ring
  · rw [hqs]; refine (((i.const_add _).mul_const _).mul_const _).congr_deriv ?_; ring
  · rw [hqs]; refine ((i.const_add _).mul_const _).congr_deriv ?_; ring

example : len2 (vrotSph2cart libm ⟨1, 2, 3⟩ 30 40) = 14 := by
  rw [(C33_length _ _ _).2.1]; norm_num [len2]

/-! ### C35 -/

/-- Inner product. -/
def inner3 (v w : V3 ℝ) : ℝ := v.x * w.x + v.y * w.y + v.z * w.z

/-- Determinant of three rows. -/
def det3 (m : M3 ℝ) : ℝ :=
  m.r0.x * (m.r1.y * m.r2.z - m.r1.z * m.r2.y) - m.r0.y * (m.r1.x * m.r2.z - m.r1.z * m.r2.x) +
    m.r0.z * (m.r1.x * m.r2.y - m.r1.y * m.r2.x)

/-- Unit vector pointing to the given latitude and longitude (degrees). -/
noncomputable def direction (lat lon : ℝ) : V3 ℝ :=
  ⟨Real.cos (lat * (Real.pi / 180)) * Real.cos (lon * (Real.pi / 180)),
    Real.cos (lat * (Real.pi / 180)) * Real.sin (lon * (Real.pi / 180)), Real.sin (lat * (Real.pi / 180))⟩

theorem inner_direction (lat lon : ℝ) : inner3 (direction lat lon) (direction lat lon) = 1 := by
  have h1 := Real.sin_sq_add_cos_sq (lat * (Real.pi / 180))
  have h2 := Real.sin_sq_add_cos_sq (lon * (Real.pi / 180))
  simp only [inner3, direction]
  linear_combination h1 + Real.cos (lat * (Real.pi / 180)) ^ 2 * h2

theorem dg2rad_mul (x : ℝ) : dg2rad libm * x = x * (Real.pi / 180) := by
  simp only [dg2rad, libm]; ring

theorem libm_sin : libm.sin = Real.sin := rfl

theorem libm_cos : libm.cos = Real.cos := rfl

/-- **C35**, the matrix is a proper rotation which moves the pole to the z axis. -/
theorem C35_rotation (lat lon : ℝ) (v w : V3 ℝ) :
    inner3 (dot v (dipoleMatrix libm lat lon)) (dot w (dipoleMatrix libm lat lon)) = inner3 v w ∧
      det3 (dipoleMatrix libm lat lon) = 1 ∧
      dot (direction lat lon) (dipoleMatrix libm lat lon) = ⟨0, 0, 1⟩ := by
  have h1 := Real.sin_sq_add_cos_sq (lat * (Real.pi / 180))
  have h2 := Real.sin_sq_add_cos_sq (lon * (Real.pi / 180))
  simp only [inner3, det3, direction, dot, dipoleMatrix, dg2rad_mul, libm_sin, libm_cos]
  generalize Real.sin (lat * (Real.pi / 180)) = s at *
  generalize Real.cos (lat * (Real.pi / 180)) = c at *
  generalize Real.sin (lon * (Real.pi / 180)) = t at *
  generalize Real.cos (lon * (Real.pi / 180)) = d at *
  refine ⟨?_, ?_, V3.ext' ?_ ?_ ?_⟩
  · linear_combination ((v.x * d + v.y * t) * (w.x * d + w.y * t) + v.z * w.z) * h1 +
      (v.x * w.x + v.y * w.y) * h2
  · linear_combination h2 + (d ^ 2 + t ^ 2) * h1
  · linear_combination (s * c) * h2
  · ring
  · linear_combination h1 + c ^ 2 * h2

/-- The dipole frame: the y axis is horizontal (east of the pole), so the zero dipole
meridian passes through the geographic pole. -/
theorem C35_meridian (lat lon : ℝ) :
    (dot ⟨0, 0, 1⟩ (dipoleMatrix libm lat lon)).y = 0 ∧
      (dot ⟨0, 0, 1⟩ (dipoleMatrix libm lat lon)).x = -Real.cos (lat * (Real.pi / 180)) := by
  simp [dot, dipoleMatrix, dg2rad_mul, libm_sin, libm_cos]

/-- Transposition inverts the rotation. -/
theorem dipole_inverse (lat lon : ℝ) (v : V3 ℝ) :
    dot (dot v (dipoleMatrix libm lat lon)) (dipoleMatrix libm lat lon).transpose = v ∧
      dot (dot v (dipoleMatrix libm lat lon).transpose) (dipoleMatrix libm lat lon) = v := by
  have h1 := Real.sin_sq_add_cos_sq (lat * (Real.pi / 180))
  have h2 := Real.sin_sq_add_cos_sq (lon * (Real.pi / 180))
  simp only [dot, M3.transpose, dipoleMatrix, dg2rad_mul, libm_sin, libm_cos]
  generalize Real.sin (lat * (Real.pi / 180)) = s at *
  generalize Real.cos (lat * (Real.pi / 180)) = c at *
  generalize Real.sin (lon * (Real.pi / 180)) = t at *
  generalize Real.cos (lon * (Real.pi / 180)) = d at *
  refine ⟨V3.ext' ?_ ?_ ?_, V3.ext' ?_ ?_ ?_⟩ <;> dsimp only
  · linear_combination (v.x * d ^ 2 + v.y * t * d) * h1 + v.x * h2
  · linear_combination (v.x * d * t + v.y * t ^ 2) * h1 + v.y * h2
  · linear_combination v.z * h1
  · linear_combination (v.x * s ^ 2 + v.z * s * c) * h2 + v.x * h1
  · linear_combination v.y * h2
  · linear_combination (v.x * s * c + v.z * c ^ 2) * h2 + v.z * h1

theorem cart2sph_ok {v : V3 ℝ} (h : 0 < inner3 v v) :
    |(convCartSph libm v).x| ≤ 90 ∧ (convCartSph libm v).z = Real.sqrt (inner3 v v) ∧
      Real.sqrt (inner3 v v) * Real.sin (dg2rad libm * (convCartSph libm v).x) = v.z ∧
      convSphCart libm (convCartSph libm v) = v := by
  have hne : v ≠ ⟨0, 0, 0⟩ := by
    rintro rfl; simp [inner3] at h
  have e : some (convSphCart libm (convCartSph libm v)) = some v := C30_cart_sph_cart v hne
  have e := Option.some.inj e
  have hz : (convCartSph libm v).z = Real.sqrt (inner3 v v) := rfl
  refine ⟨?_, hz, ?_, e⟩
  · show |Real.arcsin (v.z / Real.sqrt (inner3 v v)) * rad2dg libm| ≤ 90
    rw [mul_comm]
    exact lat_deg (abs_le.mpr ⟨Real.neg_pi_div_two_le_arcsin _, Real.arcsin_le_pi_div_two _⟩)
  · have := congrArg V3.z e
    rw [← hz]
    exact this

/-- **C35**, conversion to dipole coordinates: the radius is preserved and the sine of the
dipole latitude is the cosine of the angle between the position and the pole. -/
theorem C35_convert (i : CT) (v c : V3 ℝ) (latN lonN : ℝ) (hc : convert libm v (code i) 2 = some c)
    (h0 : 0 < inner3 c c) :
    ∃ d : V3 ℝ, convertToDipole libm v latN lonN (code i) = some d ∧ d.z = Real.sqrt (inner3 c c) ∧
      |d.x| ≤ 90 ∧ d.z * Real.sin (d.x * (Real.pi / 180)) = inner3 c (direction latN lonN) ∧
      convSphCart libm d = dot c (dipoleMatrix libm latN lonN) := by
  have hin := (C35_rotation latN lonN c c).1
  have hw : 0 < inner3 (dot c (dipoleMatrix libm latN lonN)) (dot c (dipoleMatrix libm latN lonN)) := by
    rw [hin]; exact h0
  obtain ⟨k1, k2, k3, k4⟩ := cart2sph_ok hw
  refine ⟨convCartSph libm (dot c (dipoleMatrix libm latN lonN)), ?_, ?_, k1, ?_, k4⟩
  · unfold convertToDipole
    rw [hc]; rfl
  · rw [k2, hin]
  · rw [k2, ← dg2rad_mul, k3]
    have := (C35_rotation latN lonN c (direction latN lonN)).1
    rw [(C35_rotation latN lonN c c).2.2] at this
    simp only [inner3, mul_zero, zero_add, mul_one] at this ⊢
    exact this

theorem convSphCart_direction (lat lon r : ℝ) : convSphCart libm ⟨lat, lon, r⟩ = vsmul r (direction lat lon) := by
  refine V3.ext' ?_ ?_ ?_ <;> simp only [convSphCart, sph2cart, vsmul, direction, dg2rad_mul, libm_sin, libm_cos] <;> ring

/-- **C35**, positions above the pole have the dipole latitude 90 degrees. -/
theorem C35_pole (latN lonN r : ℝ) (hr : 0 < r) :
    ∃ d : V3 ℝ, convertToDipole libm ⟨latN, lonN, r⟩ latN lonN 1 = some d ∧ d.x = 90 ∧ d.z = r := by
  have hi : inner3 (vsmul r (direction latN lonN)) (direction latN lonN) = r := by
    have := inner_direction latN lonN
    simp only [inner3, vsmul] at this ⊢
    linear_combination r * this
  have hii : inner3 (vsmul r (direction latN lonN)) (vsmul r (direction latN lonN)) = r ^ 2 := by
    have := inner_direction latN lonN
    simp only [inner3, vsmul] at this ⊢
    linear_combination r ^ 2 * this
  obtain ⟨d, h1, h2, h3, h4, -⟩ := C35_convert .spherical ⟨latN, lonN, r⟩
    (convSphCart libm ⟨latN, lonN, r⟩) latN lonN rfl (by
      rw [convSphCart_direction, hii]; positivity)
  rw [convSphCart_direction] at h2 h4
  rw [hii, Real.sqrt_sq hr.le] at h2
  refine ⟨d, h1, ?_, h2⟩
  rw [hi, h2] at h4
  have hs : Real.sin (d.x * (Real.pi / 180)) = 1 := by
    have : r * (Real.sin (d.x * (Real.pi / 180)) - 1) = 0 := by linarith
    rcases mul_eq_zero.mp this with h | h
    · exact absurd h hr.ne'
    · linarith
  have hb := lat_rad h3
  rw [dg2rad_mul, abs_le] at hb
  have hq := Real.arcsin_sin hb.1 hb.2
  rw [hs, Real.arcsin_one, ← dg2rad_mul, ← dg2rad_90] at hq
  exact (mul_left_cancel₀ dg2rad_pos.ne' hq).symm

/-! ### C36 -/

/-- Position in the geographic Cartesian frame given by dipole coordinates. -/
noncomputable def dipolePosition (latN lonN : ℝ) (d : V3 ℝ) : V3 ℝ :=
  dot (convSphCart libm d) (dipoleMatrix libm latN lonN).transpose

/-- `dipolePosition` inverts the conversion to dipole coordinates. -/
theorem C36_position (i : CT) (v c : V3 ℝ) (latN lonN : ℝ) (hc : convert libm v (code i) 2 = some c)
    (h0 : 0 < inner3 c c) :
    (convertToDipole libm v latN lonN (code i)).map (dipolePosition latN lonN) = some c := by
  obtain ⟨d, h1, -, -, -, h5⟩ := C35_convert i v c latN lonN hc h0
  rw [h1, Option.map_some, dipolePosition, h5, (dipole_inverse _ _ _).1]

theorem dot_deriv {f : ℝ → V3 ℝ} {d : V3 ℝ} {t : ℝ} (m : M3 ℝ) (h : HasDeriv3 f d t) :
    HasDeriv3 (fun s => dot (f s) m) (dot d m) t := by
  obtain ⟨h1, h2, h3⟩ := h
  exact ⟨((h1.mul_const _).add (h2.mul_const _)).add (h3.mul_const _),
    ((h1.mul_const _).add (h2.mul_const _)).add (h3.mul_const _),
    ((h1.mul_const _).add (h2.mul_const _)).add (h3.mul_const _)⟩

theorem dot_vsmul (c : ℝ) (v : V3 ℝ) (m : M3 ℝ) : dot (vsmul c v) m = vsmul c (dot v m) := by
  refine V3.ext' ?_ ?_ ?_ <;> simp only [dot, vsmul] <;> ring

/-- **C36**, Cartesian output: the dipole north, east and up vectors are mapped to the
normalised derivatives of the geographic Cartesian position with respect to the dipole
latitude, longitude and radius; a general vector to the sum of its components. -/
theorem C36_cartesian (latN lonN la lo r : ℝ) (out : Option (ℝ × ℝ)) :
    ∃ n e u : V3 ℝ,
      (∀ v : V3 ℝ, vrotFromDipole libm v latN lonN la lo out 2 =
        some (vadd (vsmul v.x n) (vadd (vsmul v.y e) (vsmul v.z u)))) ∧
      HasDeriv3 (fun t => dipolePosition latN lonN ⟨t, lo, r⟩) (vsmul (dg2rad libm * r) n) la ∧
      HasDeriv3 (fun t => dipolePosition latN lonN ⟨la, t, r⟩)
        (vsmul (dg2rad libm * (r * Real.cos (dg2rad libm * la))) e) lo ∧
      HasDeriv3 (fun t => dipolePosition latN lonN ⟨la, lo, t⟩) u r ∧
      inner3 n n = 1 ∧ inner3 e e = 1 ∧ inner3 u u = 1 := by
  set m := (dipoleMatrix libm latN lonN).transpose with hm
  obtain ⟨h1, h2, h3⟩ := C34_spherical la lo r
  have key : ∀ v : V3 ℝ, len2 (dot v m) = len2 v := by
    intro v
    have := (C35_rotation latN lonN (dot v m) (dot v m)).1
    rw [hm, (dipole_inverse _ _ _).2, ← hm] at this
    simp only [inner3] at this
    simp only [len2]
    linear_combination -this
  have il : ∀ v : V3 ℝ, inner3 v v = len2 v := by intro v; simp only [inner3, len2]; ring
  refine ⟨dot (vrotSph2cart libm north la lo) m, dot (vrotSph2cart libm east la lo) m,
    dot (vrotSph2cart libm up la lo) m, ?_, ?_, ?_, ?_, ?_, ?_, ?_⟩
  · intro v
    show some (dot (vrotSph2cart libm v la lo) m) = _
    rw [C34_components v]
    congr 1
    refine V3.ext' ?_ ?_ ?_ <;> simp only [dot, vsmul, vadd] <;> ring
  · have := dot_deriv m h1
    rwa [dot_vsmul] at this
  · have := dot_deriv m h2
    rwa [dot_vsmul] at this
  · exact dot_deriv m h3
  · rw [il, key, (C33_length _ _ _).2.1]; norm_num [len2, north]
  · rw [il, key, (C33_length _ _ _).2.1]; norm_num [len2, east]
  · rw [il, key, (C33_length _ _ _).2.1]; norm_num [len2, up]

/-- **C36**, spherical and geodetic output: the components of the Cartesian vector with
respect to the north, east and up vectors of the output position; the norm is preserved
and the inverse rotation gives the input. -/
theorem C36_components (v : V3 ℝ) (latN lonN la lo lat lon : ℝ) (i : CT) (hi : i ≠ .cartesian) :
    ∃ w : V3 ℝ, vrotFromDipole libm v latN lonN la lo (some (lat, lon)) (code i) = some w ∧
      vrotFromDipole libm v latN lonN la lo none 2 = some (vrotSph2cart libm w lat lon) ∧
      len2 w = len2 v ∧
      vrotCart2sph libm (dot (vrotSph2cart libm w lat lon) (dipoleMatrix libm latN lonN)) la lo = v := by
  refine ⟨vrotCart2sph libm (dot (vrotSph2cart libm v la lo) (dipoleMatrix libm latN lonN).transpose)
    lat lon, ?_, ?_, ?_, ?_⟩
  · cases i
    · rfl
    · rfl
    · exact absurd rfl hi
  · rw [(C33_inverse _ _ _).2]; rfl
  · rw [(C33_length _ _ _).2.2]
    have := (C35_rotation latN lonN (dot (vrotSph2cart libm v la lo) (dipoleMatrix libm latN lonN).transpose)
      (dot (vrotSph2cart libm v la lo) (dipoleMatrix libm latN lonN).transpose)).1
    rw [(dipole_inverse _ _ _).2] at this
    have il : ∀ v : V3 ℝ, inner3 v v = len2 v := by intro v; simp only [inner3, len2]; ring
    rw [il, il, (C33_length _ _ _).2.1] at this
    exact this.symm
  · rw [(C33_inverse _ _ _).2, (dipole_inverse _ _ _).2, (C33_inverse _ _ _).1]

/-- **C36**, `rotate_vectors_from_dipole` uses the position converted to the output
system, so that the rotation of the result to the Cartesian frame at that position gives
the Cartesian result. -/
theorem C36_rotate (v : V3 ℝ) (latN lonN : ℝ) (d p : V3 ℝ) (i o : CT) (ho : o ≠ .cartesian) :
    ∃ q w : V3 ℝ, convert libm p (code i) (code o) = some q ∧
      rotateVectorsFromDipole libm v latN lonN d p (code i) (code o) = some w ∧
      rotateVectorsFromDipole libm v latN lonN d p (code i) 2 = some (vrotSph2cart libm w q.x q.y) := by
  obtain ⟨w, h1, h2, -, -⟩ := C36_components v latN lonN d.x d.y (getFconv libm i o p).x
    (getFconv libm i o p).y o ho
  refine ⟨getFconv libm i o p, w, convert_code i o p, ?_, ?_⟩
  · unfold rotateVectorsFromDipole
    have : code o ≠ 2 := by cases o <;> simp [code] at ho ⊢
    rw [if_neg this, convert_code]
    exact h1
  · unfold rotateVectorsFromDipole
    rw [if_pos rfl]
    exact h2

/-! ### C37 -/

theorem atan2_scale {r : ℝ} (hr : 0 < r) (y x : ℝ) : atan2 (r * y) (r * x) = atan2 y x := by
  unfold atan2
  rw [show (⟨r * x, r * y⟩ : ℂ) = (r : ℂ) * ⟨x, y⟩ by
    apply Complex.ext <;> simp]
  exact Complex.arg_real_mul _ hr

/-- **C37**: the magnetic universal time is in [0, 24) and equals (180 - dipole longitude
of the sub-solar point) / 15, where the sub-solar point may be put at any distance. -/
theorem C37_mut (latN lonN latS lonS r : ℝ) (hr : 0 < r) :
    0 ≤ magneticUniversalTime libm latN lonN latS lonS ∧
      magneticUniversalTime libm latN lonN latS lonS < 24 ∧
      ∃ d : V3 ℝ, convertToDipole libm ⟨latS, lonS, r⟩ latN lonN 1 = some d ∧
        magneticUniversalTime libm latN lonN latS lonS = (180 - d.y) / 15 := by
  have hp := Real.pi_pos
  set Y := Real.cos (dg2rad libm * latS) * Real.sin (dg2rad libm * (lonS - lonN)) with hY
  set X := Real.sin (dg2rad libm * latN) * Real.cos (dg2rad libm * latS) *
    Real.cos (dg2rad libm * (lonS - lonN)) - Real.cos (dg2rad libm * latN) * Real.sin (dg2rad libm * latS) with hX
  have hm : magneticUniversalTime libm latN lonN latS lonS = 12 / Real.pi * (Real.pi - atan2 Y X) := rfl
  obtain ⟨m1, m2⟩ := atan2_mem Y X
  refine ⟨?_, ?_, ?_⟩
  · rw [hm]
    exact mul_nonneg (by positivity) (by linarith)
  · rw [hm, div_mul_eq_mul_div, div_lt_iff₀ hp]
    linarith
  · refine ⟨convCartSph libm (dot (convSphCart libm ⟨latS, lonS, r⟩) (dipoleMatrix libm latN lonN)), rfl, ?_⟩
    have hy : (convCartSph libm (dot (convSphCart libm ⟨latS, lonS, r⟩) (dipoleMatrix libm latN lonN))).y =
        atan2 (r * Y) (r * X) * rad2dg libm := by
      show atan2 _ _ * _ = _
      have e : dg2rad libm * (lonS - lonN) = dg2rad libm * lonS - dg2rad libm * lonN := by ring
      have e1 : (dot (convSphCart libm ⟨latS, lonS, r⟩) (dipoleMatrix libm latN lonN)).y = r * Y := by
        rw [hY, e, Real.sin_sub]
        simp only [dot, convSphCart, sph2cart, dipoleMatrix]
        have a : libm.sin = Real.sin := rfl
        have b : libm.cos = Real.cos := rfl
        rw [a, b]; ring
      have e2 : (dot (convSphCart libm ⟨latS, lonS, r⟩) (dipoleMatrix libm latN lonN)).x = r * X := by
        rw [hX, e, Real.cos_sub]
        simp only [dot, convSphCart, sph2cart, dipoleMatrix]
        have a : libm.sin = Real.sin := rfl
        have b : libm.cos = Real.cos := rfl
        rw [a, b]; ring
      rw [e1, e2]
    rw [hm, hy, atan2_scale hr]
    simp only [rad2dg, libm]
    field_simp
    ring

/-- **C37**: `mjd2000_to_magnetic_universal_time` uses the given sub-solar point if both
its latitude and longitude are given, otherwise that of the solar position at the time. -/
theorem C37_time (sunpos : ℝ → ℝ × ℝ) (mjd latN lonN : ℝ) (la lo : Option ℝ) :
    ∃ latS lonS : ℝ, mutTime libm sunpos mjd latN lonN la lo =
        magneticUniversalTime libm latN lonN latS lonS ∧
      (la = some latS ∧ lo = some lonS ∨
        (la = none ∨ lo = none) ∧ latS = (sunpos mjd).1 ∧ lonS = -(sunpos mjd).2) := by
  unfold mutTime
  split
  · exact ⟨_, _, rfl, .inl ⟨rfl, rfl⟩⟩
  · rename_i h
    refine ⟨_, _, rfl, .inr ⟨?_, rfl, rfl⟩⟩
    rcases la with _ | a
    · exact .inl rfl
    · rcases lo with _ | b
      · exact .inr rfl
      · exact (h a b rfl rfl).elim

/-! ### C38 -/

/-- **C38** (partial: the inclination of the zero vector is NaN in the code, 0/0). -/
theorem C38_vincdecnorm_partial (v : V3 ℝ) (h : v ≠ ⟨0, 0, 0⟩) :
    ∃ t : V3 ℝ, vincdecnorm libm v = some t ∧ |t.x| ≤ 90 ∧ -180 < t.y ∧ t.y ≤ 180 ∧
      t.z = vnorm libm v ∧ 0 < t.z ∧
      v.x = t.z * Real.cos (t.x * (Real.pi / 180)) * Real.cos (t.y * (Real.pi / 180)) ∧
      v.y = t.z * Real.cos (t.x * (Real.pi / 180)) * Real.sin (t.y * (Real.pi / 180)) ∧
      v.z = -(t.z * Real.sin (t.x * (Real.pi / 180))) := by
  have hpos : 0 < inner3 v v := by
    obtain ⟨x, y, z⟩ := v
    have h1 := mul_self_nonneg x
    have h2 := mul_self_nonneg y
    have h3 := mul_self_nonneg z
    rcases (add_nonneg (add_nonneg h1 h2) h3).lt_or_eq with hh | hh
    · exact hh
    · exfalso
      have a : x = 0 := mul_self_eq_zero.mp (by linarith)
      have b : y = 0 := mul_self_eq_zero.mp (by linarith)
      have c : z = 0 := mul_self_eq_zero.mp (by linarith)
      exact h (by rw [a, b, c])
  obtain ⟨k1, k2, -, k4⟩ := cart2sph_ok hpos
  set s := convCartSph libm v with hs
  refine ⟨⟨-s.x, s.y, s.z⟩, rfl, ?_, ?_, ?_, ?_, ?_, ?_⟩
  · rwa [abs_neg]
  · have := atan2_mem v.y v.x
    have := (lon_deg this.1 this.2).1
    rwa [mul_comm] at this
  · have := atan2_mem v.y v.x
    have := (lon_deg this.1 this.2).2
    rwa [mul_comm] at this
  · rfl
  · show 0 < s.z
    rw [k2]; exact Real.sqrt_pos.mpr hpos
  · have ex := congrArg V3.x k4
    have ey := congrArg V3.y k4
    have ez := congrArg V3.z k4
    simp only [convSphCart, sph2cart, dg2rad_mul] at ex ey ez
    simp only [neg_mul, Real.cos_neg, Real.sin_neg, mul_neg, neg_neg]
    exact ⟨ex.symm, ey.symm, ez.symm⟩

example : (⟨3, 0, -4⟩ : V3 ℝ) ≠ ⟨0, 0, 0⟩ := by simp

end Verif.Props
