/-
Properties C30 - C38: coordinate conversions, vector rotations, dipole coordinates,
magnetic universal time, inclination and declination.
-/
import Verif.Lemmas.Convert
import Mathlib.Analysis.SpecialFunctions.Trigonometric.Deriv

set_option linter.unusedSectionVars false

namespace Verif.Props

open Verif.Geo Verif.Spec

/-- Longitude recovered from a position: in (-180, 180], and 0 at the poles, where the
position does not determine it. -/
def CanonLon (lat lon : ℝ) : Prop := |lat| ≤ 90 ∧ -180 < lon ∧ lon ≤ 180 ∧ (|lat| < 90 ∨ lon = 0)

/-- Positions (km, degrees) for which the conversions are claimed: heights above -6313 km,
radii from 43 km. -/
def Valid : CT → V3 ℝ → Prop
  | .geodetic, v => CanonLon v.x v.y ∧ -6313 ≤ v.z
  | .spherical, v => CanonLon v.x v.y ∧ 43 ≤ v.z
  | .cartesian, v => 43 ^ 2 ≤ v.x ^ 2 + v.y ^ 2 + v.z ^ 2

theorem far_of_radius {p z : ℝ} (h : 43 ^ 2 ≤ p ^ 2 + z ^ 2) : Far p z := by
  unfold Far
  have h1 : ((wgs84A : ℝ) * wgs84Eps2) ^ 2 < 1824 := by
    unfold wgs84Eps2 wgs84B wgs84A; norm_num
  have h2 : (wgs84Eps2 : ℝ) < 7 / 1000 := by unfold wgs84Eps2 wgs84B wgs84A; norm_num
  have h3 := eps2_pos
  have hp := sq_nonneg p
  have hz := sq_nonneg z
  nlinarith

theorem curv_ge (φ : ℝ) : wgs84A * (1 + wgs84Eps2 / 2 * Real.sin φ ^ 2) ≤ curv φ := by
  have he := eps2_pos
  have he1 := eps2_lt
  have hs := Real.sin_sq_add_cos_sq φ
  have hc := sq_nonneg (Real.cos φ)
  have hs0 := sq_nonneg (Real.sin φ)
  have hW2 : 0 < 1 - wgs84Eps2 * Real.sin φ * Real.sin φ := by nlinarith
  unfold curv
  rw [le_div_iff₀ (Real.sqrt_pos.mpr hW2), mul_assoc]
  refine mul_le_of_le_one_right wgs84A_pos.le ?_
  set y := wgs84Eps2 * Real.sin φ ^ 2 with hy
  have hy0 : 0 ≤ y := by positivity
  have e : 1 - wgs84Eps2 * Real.sin φ * Real.sin φ = 1 - y := by rw [hy]; ring
  rw [e] at hW2 ⊢
  have hsq := Real.sq_sqrt hW2.le
  have hq := Real.sqrt_nonneg (1 - y)
  have hb : Real.sqrt (1 - y) ≤ 1 - y / 2 := by
    rw [show (1 - y / 2) = Real.sqrt ((1 - y / 2) ^ 2) by rw [Real.sqrt_sq (by linarith)]]
    refine Real.sqrt_le_sqrt ?_
    nlinarith [sq_nonneg y]
  have : (1 + wgs84Eps2 / 2 * Real.sin φ ^ 2) = 1 + y / 2 := by rw [hy]; ring
  rw [this]
  nlinarith [mul_nonneg hy0 hq]

theorem far_geodetic {φ h : ℝ} (hh : -6313 ≤ h) :
    0 < curv φ * (1 - wgs84Eps2) + h ∧
    Far ((curv φ + h) * Real.cos φ) ((curv φ * (1 - wgs84Eps2) + h) * Real.sin φ) := by
  have he := eps2_pos
  have hc := curv_ge φ
  have hs := Real.sin_sq_add_cos_sq φ
  set σ := Real.sin φ ^ 2 with hσ
  have hσ0 : 0 ≤ σ := sq_nonneg _
  have hc0 : Real.cos φ ^ 2 = 1 - σ := by linarith
  have hσ1 : σ ≤ 1 := by have := sq_nonneg (Real.cos φ); linarith
  have ha : (wgs84A : ℝ) = 6378137 / 1000 := rfl
  have e1 : (6694 / 1000000 : ℝ) < wgs84Eps2 := by unfold wgs84Eps2 wgs84B wgs84A; norm_num
  have e2 : (wgs84Eps2 : ℝ) < 6695 / 1000000 := by unfold wgs84Eps2 wgs84B wgs84A; norm_num
  set e := (wgs84Eps2 : ℝ)
  set N := curv φ
  have hN : 6378137 / 1000 * (1 + 3347 / 1000000 * σ) ≤ N := by
    rw [ha] at hc
    nlinarith
  have hk : 22 + 21 * σ ≤ N * (1 - e) + h := by nlinarith
  have hne : 427 / 10 - 1 / 10 + 0 ≤ N * e := by nlinarith
  set k := N * (1 - e) + h with hkd
  have hsum : N + h = N * e + k := by rw [hkd]; ring
  refine ⟨by linarith, ?_⟩
  unfold Far
  show (wgs84A * e) ^ 2 < ((N + h) * Real.cos φ) ^ 2 + (1 - e) * (k * Real.sin φ) ^ 2
  rw [mul_pow (N + h), mul_pow k, hc0, ← hσ, hsum]
  have h1 : ((wgs84A : ℝ) * e) ^ 2 < 1824 := by
    rw [ha]
    nlinarith
  have hb : (64 + 21 * σ) ^ 2 ≤ (N * e + k) ^ 2 := pow_le_pow_left₀ (by positivity) (by linarith) 2
  have hk2 : (22 + 21 * σ) ^ 2 ≤ k ^ 2 := pow_le_pow_left₀ (by positivity) hk 2
  have hA : (64 + 21 * σ) ^ 2 * (1 - σ) ≤ (N * e + k) ^ 2 * (1 - σ) :=
    mul_le_mul_of_nonneg_right hb (by linarith)
  have hB : (1 - e) * ((22 + 21 * σ) ^ 2 * σ) ≤ (1 - e) * (k ^ 2 * σ) :=
    mul_le_mul_of_nonneg_left (mul_le_mul_of_nonneg_right hk2 hσ0) (by linarith)
  have hC : 99 / 100 * ((22 + 21 * σ) ^ 2 * σ) ≤ (1 - e) * ((22 + 21 * σ) ^ 2 * σ) :=
    mul_le_mul_of_nonneg_right (by linarith) (by positivity)
  have hD : 1824 ≤ (64 + 21 * σ) ^ 2 * (1 - σ) + 99 / 100 * ((22 + 21 * σ) ^ 2 * σ) := by
    nlinarith [mul_nonneg hσ0 (sub_nonneg.mpr hσ1), mul_nonneg hσ0 (mul_nonneg hσ0 (sub_nonneg.mpr hσ1))]
  linarith

theorem Valid.dom {ct : CT} {v : V3 ℝ} (h : Valid ct v) : Dom ct v := by
  cases ct
  · obtain ⟨h1, h2⟩ := h
    obtain ⟨a, b⟩ := far_geodetic (φ := dg2rad libm * v.x) h2
    exact ⟨h1, a, b⟩
  · obtain ⟨h1, h2⟩ := h
    refine ⟨h1, by linarith, far_of_radius ?_⟩
    have : (v.z * Real.cos (dg2rad libm * v.x)) ^ 2 + (v.z * Real.sin (dg2rad libm * v.x)) ^ 2 = v.z ^ 2 := by
      linear_combination v.z ^ 2 * Real.sin_sq_add_cos_sq (dg2rad libm * v.x)
    rw [this]
    exact pow_le_pow_left₀ (by norm_num) h2 2
  · refine far_of_radius ?_
    rw [Real.sq_sqrt (add_nonneg (mul_self_nonneg _) (mul_self_nonneg _))]
    have : 43 ^ 2 ≤ v.x ^ 2 + v.y ^ 2 + v.z ^ 2 := h
    nlinarith

/-! ### C32, C30, C31 -/

/-- Code of a coordinate system. -/
def code : CT → Int
  | .geodetic => 0
  | .spherical => 1
  | .cartesian => 2

theorem checkCT_code (ct : CT) : checkCT (code ct) = some ct := by cases ct <;> rfl

theorem convert_code (i o : CT) (v : V3 ℝ) : convert libm v (code i) (code o) =
    some (getFconv libm i o v) := by
  cases i <;> cases o <;> rfl

/-- **C32**.  Conversion through any system equals the direct conversion; for equal first
and last systems it is the round trip. -/
theorem C32_coherent (i j k : CT) (v : V3 ℝ) (h : Valid i v) :
    (convert libm v (code i) (code j)).bind (fun w => convert libm w (code j) (code k)) =
      convert libm v (code i) (code k) := by
  rw [convert_code, convert_code, Option.bind_some, convert_code]
  obtain ⟨d, e⟩ := dom_conv (o := j) h.dom
  rw [getFconv_mer d, e, ← getFconv_mer h.dom]

/-- **C32**, conversion to the same system returns the input. -/
theorem C32_identity (i : CT) (v : V3 ℝ) : convert libm v (code i) (code i) = some v := by
  cases i <;> rfl

/-- **C32**, `ValueError` exactly for the codes other than 0, 1, 2. -/
theorem C32_codes (a b : Int) (v : V3 ℝ) :
    convert libm v a b = none ↔ ¬(0 ≤ a ∧ a ≤ 2 ∧ 0 ≤ b ∧ b ≤ 2) := by
  have key : ∀ c : Int, checkCT c = none ↔ ¬(0 ≤ c ∧ c ≤ 2) := by
    intro c
    unfold checkCT
    split_ifs <;> simp <;> omega
  unfold convert
  rcases ha : checkCT a with _ | i
  · have := (key a).mp ha
    simp only [Option.bind_eq_bind, Option.bind_none, true_iff]
    tauto
  · have h1 : 0 ≤ a ∧ a ≤ 2 := by
      by_contra hc
      rw [(key a).mpr hc] at ha; cases ha
    rcases hb : checkCT b with _ | o
    · have := (key b).mp hb
      simp only [Option.bind_eq_bind, Option.bind_none, Option.bind_some, true_iff]
      tauto
    · have h2 : 0 ≤ b ∧ b ≤ 2 := by
        by_contra hc
        rw [(key b).mpr hc] at hb; cases hb
      simp only [Option.bind_eq_bind, Option.bind_some]
      constructor
      · intro h; split at h <;> cases h
      · intro h; exact absurd ⟨h1.1, h1.2, h2.1, h2.2⟩ h

example : Valid .geodetic ⟨48, 16, 200 / 1000⟩ ∧ Valid .spherical ⟨-90, 0, 6371⟩ ∧
    Valid .cartesian ⟨100, -7000, 3⟩ := by
  unfold Valid CanonLon
  norm_num [abs_of_nonneg, abs_of_nonpos]

/-- **C30** (partial: at the poles only latitude and radius), spherical to Cartesian and
back, every radius > 0. -/
theorem C30_sph_cart_sph_partial (v : V3 ℝ) (hr : 0 < v.z) (hlat : |v.x| < 90) (h1 : -180 < v.y)
    (h2 : v.y ≤ 180) :
    (convert libm v 1 2).bind (fun w => convert libm w 2 1) = some v := by
  have hl := lat_rad_lt hlat
  have hc := cos_pos_abs hl
  obtain ⟨l1, l2⟩ := lon_rad h1 h2
  show some (convCartSph libm (convSphCart libm v)) = some v
  congr 1
  unfold convCartSph convSphCart sph2cart
  have hp : 0 < v.z * Real.cos (dg2rad libm * v.x) := mul_pos hr hc
  have hn : norm2d libm (v.z * Real.cos (dg2rad libm * v.x)) (v.z * Real.sin (dg2rad libm * v.x)) = v.z :=
    polar_norm hr.le _
  have e := cart2sph_eq (p := v.z * Real.cos (dg2rad libm * v.x)) (z := v.z * Real.sin (dg2rad libm * v.x))
    (l := dg2rad libm * v.y) hp.le (by
      have := mul_pos hp hp
      have := mul_self_nonneg (v.z * Real.sin (dg2rad libm * v.x))
      linarith)
  have e' : cart2sph libm (v.z * libm.cos (dg2rad libm * v.x) * libm.cos (dg2rad libm * v.y))
    (v.z * libm.cos (dg2rad libm * v.x) * libm.sin (dg2rad libm * v.y)) (v.z * libm.sin (dg2rad libm * v.x)) =
    _ := e
  simp only [e', hn]
  have hp' := Real.pi_pos
  rw [abs_lt] at hl
  rw [atan2_polar hr (by linarith) (by linarith), atan2_polar hp l1 l2, deg_rad', deg_rad']

/-- **C30**, poles: the longitude 0 is returned, latitude and radius are recovered. -/
theorem C30_pole (s lon r : ℝ) (hs : s = 1 ∨ s = -1) (hr : 0 < r) :
    (convert libm ⟨s * 90, lon, r⟩ 1 2).bind (fun w => convert libm w 2 1) = some ⟨s * 90, 0, r⟩ := by
  have hc : Real.cos (dg2rad libm * (s * 90)) = 0 := by
    rcases hs with rfl | rfl
    · rw [one_mul, dg2rad_90, Real.cos_pi_div_two]
    · rw [neg_one_mul, mul_neg, dg2rad_90, Real.cos_neg, Real.cos_pi_div_two]
  have hl : |dg2rad libm * (s * 90)| ≤ Real.pi / 2 := by
    refine lat_rad ?_
    rcases hs with rfl | rfl <;> norm_num [abs_of_nonneg]
  show some (convCartSph libm (convSphCart libm _)) = some _
  congr 1
  unfold convCartSph convSphCart sph2cart cart2sph
  have hc' : libm.cos (dg2rad libm * (s * 90)) = 0 := hc
  simp only [hc', norm3d, mul_zero, zero_mul, zero_add]
  have hn : Real.sqrt (r * Real.sin (dg2rad libm * (s * 90)) * (r * Real.sin (dg2rad libm * (s * 90)))) = r := by
    have := Real.sin_sq_add_cos_sq (dg2rad libm * (s * 90))
    rw [hc] at this
    rw [show r * Real.sin (dg2rad libm * (s * 90)) * (r * Real.sin (dg2rad libm * (s * 90))) = r ^ 2 by
      linear_combination r ^ 2 * this]
    exact Real.sqrt_sq hr.le
  have hz : atan2 0 0 = 0 := Complex.arg_zero
  have e := arcsin_ratio hr hl
  have key : (⟨Real.arcsin (r * Real.sin (dg2rad libm * (s * 90)) /
      Real.sqrt (r * Real.sin (dg2rad libm * (s * 90)) * (r * Real.sin (dg2rad libm * (s * 90))))) * rad2dg libm,
      atan2 0 0 * rad2dg libm,
      Real.sqrt (r * Real.sin (dg2rad libm * (s * 90)) * (r * Real.sin (dg2rad libm * (s * 90))))⟩ : V3 ℝ) =
      ⟨s * 90, 0, r⟩ := by
    rw [hn, e, hz, deg_rad', zero_mul]
  exact key

/-- **C30**, Cartesian to spherical and back, every position but the origin. -/
theorem C30_cart_sph_cart (v : V3 ℝ) (h : v ≠ ⟨0, 0, 0⟩) :
    (convert libm v 2 1).bind (fun w => convert libm w 1 2) = some v := by
  obtain ⟨x, y, z⟩ := v
  show some (convSphCart libm (convCartSph libm _)) = some _
  congr 1
  have hpos : 0 < x * x + y * y + z * z := by
    have h1 := mul_self_nonneg x
    have h2 := mul_self_nonneg y
    have h3 := mul_self_nonneg z
    rcases (add_nonneg (add_nonneg h1 h2) h3).lt_or_eq with hh | hh
    · exact hh
    · exfalso
      have a : x = 0 := mul_self_eq_zero.mp (by linarith)
      have b : y = 0 := mul_self_eq_zero.mp (by linarith)
      have c : z = 0 := mul_self_eq_zero.mp (by linarith)
      exact h (by rw [a, b, c])
  obtain ⟨hx, hy⟩ := cart_polar x y
  set p := norm2d libm x y with hp
  have hp0 : 0 ≤ p := norm2d_nonneg x y
  have hpz : 0 < p * p + z * z := by
    rw [hp, norm2d_eq, Real.mul_self_sqrt (add_nonneg (mul_self_nonneg _) (mul_self_nonneg _))]; exact hpos
  have e := cart2sph_eq (p := p) (z := z) (l := atan2 y x) hp0 hpz
  rw [← hx, ← hy] at e
  unfold convSphCart convCartSph sph2cart
  simp only [e, rad_deg']
  have hc := cos_atan2 z p
  have hs := sin_atan2 z p
  rw [← norm2d_eq] at hc hs
  simp only [libm]
  have e1 : norm2d libm p z * Real.cos (atan2 z p) = p := hc
  have e2 : norm2d libm p z * Real.sin (atan2 z p) = z := hs
  have key : (⟨norm2d libm p z * Real.cos (atan2 z p) * Real.cos (atan2 y x),
    norm2d libm p z * Real.cos (atan2 z p) * Real.sin (atan2 y x), norm2d libm p z * Real.sin (atan2 z p)⟩ : V3 ℝ) =
    ⟨x, y, z⟩ := by rw [e1, e2, ← hx, ← hy]
  exact key

/-- **C31**, geodetic coordinates to geocentric Cartesian or spherical ones and back. -/
theorem C31_geodetic (o : CT) (v : V3 ℝ) (hlat : |v.x| < 90) (h1 : -180 < v.y) (h2 : v.y ≤ 180)
    (hh : -6313 ≤ v.z) :
    (convert libm v 0 (code o)).bind (fun w => convert libm w (code o) 0) = some v :=
  (C32_coherent .geodetic o .geodetic v ⟨⟨hlat.le, h1, h2, .inl hlat⟩, hh⟩).trans
    (C32_identity .geodetic v)

/-- **C31** at the poles and for every longitude, through spherical coordinates. -/
theorem C31_geodetic_sph (v : V3 ℝ) (hlat : |v.x| ≤ 90) (hh : -6313 ≤ v.z) :
    (convert libm v 0 1).bind (fun w => convert libm w 1 0) = some v := by
  obtain ⟨a, b⟩ := far_geodetic (φ := dg2rad libm * v.x) hh
  have hg := geod_geoc_geod (φ := dg2rad libm * v.x) (elv := v.z) wgs84A_pos eps2_pos eps2_lt
    (lat_rad hlat) a b.outside
  show some (convSphGeod libm (convGeodSph libm v)) = some v
  congr 1
  unfold convSphGeod convGeodSph sph2geodetic geodetic2sph
  simp only [rad_deg', deg_rad']
  have hc := cos_atan2 (geod2geoc libm (dg2rad libm * v.x) v.z wgs84A wgs84Eps2).2
    (geod2geoc libm (dg2rad libm * v.x) v.z wgs84A wgs84Eps2).1
  have hs := sin_atan2 (geod2geoc libm (dg2rad libm * v.x) v.z wgs84A wgs84Eps2).2
    (geod2geoc libm (dg2rad libm * v.x) v.z wgs84A wgs84Eps2).1
  rw [← norm2d_eq] at hc hs
  have e : ∀ g : ℝ × ℝ, norm2d libm g.1 g.2 * Real.cos (atan2 g.2 g.1) = g.1 →
      norm2d libm g.1 g.2 * Real.sin (atan2 g.2 g.1) = g.2 →
      geoc2geod libm (norm2d libm g.1 g.2 * libm.cos (libm.atan2 g.2 g.1))
        (norm2d libm g.1 g.2 * libm.sin (libm.atan2 g.2 g.1)) wgs84A wgs84Eps2 =
      geoc2geod libm g.1 g.2 wgs84A wgs84Eps2 := by
    intro g e1 e2
    have e1' : norm2d libm g.1 g.2 * libm.cos (libm.atan2 g.2 g.1) = g.1 := e1
    have e2' : norm2d libm g.1 g.2 * libm.sin (libm.atan2 g.2 g.1) = g.2 := e2
    rw [e1', e2']
  rw [e _ hc hs, hg]
  simp only [deg_rad]

/-- **C31**, geocentric Cartesian coordinates to geodetic ones and back, the poles
included. -/
theorem C31_cart (v : V3 ℝ) (h : 43 ^ 2 ≤ v.x ^ 2 + v.y ^ 2 + v.z ^ 2) :
    (convert libm v 2 0).bind (fun w => convert libm w 0 2) = some v :=
  (C32_coherent .cartesian .geodetic .cartesian v h).trans (C32_identity .cartesian v)

example : |(48 : ℝ)| < 90 ∧ (-180 : ℝ) < 16 ∧ (16 : ℝ) ≤ 180 ∧ (-6313 : ℝ) ≤ 0.2 := by
  norm_num [abs_of_nonneg]

end Verif.Props
