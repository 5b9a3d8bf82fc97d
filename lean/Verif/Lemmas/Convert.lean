/-
Helper lemmas on the conversion of coordinates.
-/
import Verif.Lemmas.Geo

set_option linter.unusedSectionVars false

namespace Verif.Spec

open Verif.Geo

theorem deg_rad (x : ℝ) : rad2dg libm * (dg2rad libm * x) = x := by
  have := Real.pi_ne_zero
  simp only [rad2dg, dg2rad, libm]
  field_simp

theorem deg_rad' (x : ℝ) : dg2rad libm * x * rad2dg libm = x := by
  rw [mul_comm, deg_rad]

theorem rad_deg (x : ℝ) : dg2rad libm * (rad2dg libm * x) = x := by
  have := Real.pi_ne_zero
  simp only [rad2dg, dg2rad, libm]
  field_simp

theorem rad_deg' (x : ℝ) : dg2rad libm * (x * rad2dg libm) = x := by
  rw [mul_comm x, rad_deg]

theorem dg2rad_pos : 0 < dg2rad libm := by
  simp only [dg2rad, libm]; have := Real.pi_pos; positivity

theorem rad2dg_pos : 0 < rad2dg libm := by
  simp only [rad2dg, libm]; have := Real.pi_pos; positivity

theorem dg2rad_90 : dg2rad libm * 90 = Real.pi / 2 := by
  simp only [dg2rad, libm]; ring

theorem dg2rad_180 : dg2rad libm * 180 = Real.pi := by
  simp only [dg2rad, libm]; ring

theorem rad2dg_half : rad2dg libm * (Real.pi / 2) = 90 := by rw [← dg2rad_90, deg_rad]

theorem rad2dg_pi : rad2dg libm * Real.pi = 180 := by rw [← dg2rad_180, deg_rad]

theorem lat_rad {lat : ℝ} (h : |lat| ≤ 90) : |dg2rad libm * lat| ≤ Real.pi / 2 := by
  rw [abs_mul, abs_of_pos dg2rad_pos, ← dg2rad_90]
  exact mul_le_mul_of_nonneg_left h dg2rad_pos.le

theorem lat_rad_lt {lat : ℝ} (h : |lat| < 90) : |dg2rad libm * lat| < Real.pi / 2 := by
  rw [abs_mul, abs_of_pos dg2rad_pos, ← dg2rad_90]
  exact mul_lt_mul_of_pos_left h dg2rad_pos

theorem lat_deg {φ : ℝ} (h : |φ| ≤ Real.pi / 2) : |rad2dg libm * φ| ≤ 90 := by
  rw [abs_mul, abs_of_pos rad2dg_pos, ← rad2dg_half]
  exact mul_le_mul_of_nonneg_left h rad2dg_pos.le

theorem lat_deg_lt {φ : ℝ} (h : |φ| < Real.pi / 2) : |rad2dg libm * φ| < 90 := by
  rw [abs_mul, abs_of_pos rad2dg_pos, ← rad2dg_half]
  exact mul_lt_mul_of_pos_left h rad2dg_pos

theorem lon_rad {lon : ℝ} (h1 : -180 < lon) (h2 : lon ≤ 180) :
    -Real.pi < dg2rad libm * lon ∧ dg2rad libm * lon ≤ Real.pi := by
  rw [← dg2rad_180]
  constructor
  · rw [← mul_neg]; exact mul_lt_mul_of_pos_left h1 dg2rad_pos
  · exact mul_le_mul_of_nonneg_left h2 dg2rad_pos.le

theorem lon_deg {l : ℝ} (h1 : -Real.pi < l) (h2 : l ≤ Real.pi) :
    -180 < rad2dg libm * l ∧ rad2dg libm * l ≤ 180 := by
  rw [← rad2dg_pi]
  constructor
  · rw [← mul_neg]; exact mul_lt_mul_of_pos_left h1 rad2dg_pos
  · exact mul_le_mul_of_nonneg_left h2 rad2dg_pos.le

theorem cos_nonneg_abs {φ : ℝ} (h : |φ| ≤ Real.pi / 2) : 0 ≤ Real.cos φ := by
  rw [abs_le] at h
  exact Real.cos_nonneg_of_mem_Icc ⟨by linarith, h.2⟩

theorem cos_pos_abs {φ : ℝ} (h : |φ| < Real.pi / 2) : 0 < Real.cos φ := by
  rw [abs_lt] at h
  exact Real.cos_pos_of_mem_Ioo ⟨by linarith, h.2⟩

/-! ### Ellipsoid -/

theorem wgs84A_pos : (0 : ℝ) < wgs84A := by unfold wgs84A; norm_num
theorem eps2_pos : (0 : ℝ) < wgs84Eps2 := by unfold wgs84Eps2 wgs84B wgs84A; norm_num
theorem eps2_lt : (wgs84Eps2 : ℝ) < 1 := by unfold wgs84Eps2 wgs84B wgs84A; norm_num

/-- Far enough from the centre of the Earth (about 43 km). -/
def Far (p z : ℝ) : Prop := (wgs84A * wgs84Eps2) ^ 2 < p ^ 2 + (1 - wgs84Eps2) * z ^ 2

theorem Far.outside {p z : ℝ} (h : Far p z) : Outside (p / wgs84A * (p / wgs84A))
    ((1 - wgs84Eps2) * (z / wgs84A * (z / wgs84A))) (wgs84Eps2 * wgs84Eps2) := by
  left
  have ha := wgs84A_pos
  unfold Far at h
  have : 0 < p / wgs84A * (p / wgs84A) + (1 - wgs84Eps2) * (z / wgs84A * (z / wgs84A)) -
      wgs84Eps2 * wgs84Eps2 := by
    have e : p / wgs84A * (p / wgs84A) + (1 - wgs84Eps2) * (z / wgs84A * (z / wgs84A)) -
      wgs84Eps2 * wgs84Eps2 =
      (p ^ 2 + (1 - wgs84Eps2) * z ^ 2 - (wgs84A * wgs84Eps2) ^ 2) / wgs84A ^ 2 := by field_simp
    rw [e]
    exact div_pos (by linarith) (by positivity)
  linarith

theorem Far.ne {p z : ℝ} (h : Far p z) : p ≠ 0 ∨ z ≠ 0 := by
  by_contra hc
  push Not at hc
  rw [hc.1, hc.2] at h
  unfold Far at h
  have := sq_nonneg ((wgs84A : ℝ) * wgs84Eps2)
  norm_num at h
  linarith

theorem Far.pos {p z : ℝ} (h : Far p z) : 0 < p * p + z * z := by
  rcases h.ne with h | h
  · have := mul_self_pos.mpr h
    have := mul_self_nonneg z
    linarith
  · have := mul_self_pos.mpr h
    have := mul_self_nonneg p
    linarith

/-- Radius of curvature in the prime vertical. -/
noncomputable def curv (φ : ℝ) : ℝ :=
  wgs84A / Real.sqrt (1 - wgs84Eps2 * Real.sin φ * Real.sin φ)

/-- The geodetic latitude and height produced from a far point. -/
theorem geoc2geod_range {p z : ℝ} (hp : 0 ≤ p) (h : Far p z) :
    |(geoc2geod libm p z wgs84A wgs84Eps2).1| ≤ Real.pi / 2 ∧
    0 < curv (geoc2geod libm p z wgs84A wgs84Eps2).1 * (1 - wgs84Eps2) +
      (geoc2geod libm p z wgs84A wgs84Eps2).2 := by
  have hb := geoc_geod_geoc wgs84A_pos eps2_pos eps2_lt hp h.outside
  obtain ⟨t, ht, hk, heq⟩ := ferrari_spec eps2_pos eps2_lt h.outside
  have he := eps2_pos
  have hkp : 0 < 1 + wgs84Eps2 * t := by positivity
  have h1 : |(geoc2geod libm p z wgs84A wgs84Eps2).1| ≤ Real.pi / 2 := atan2_abs_le _ _ hp
  refine ⟨h1, ?_⟩
  set g := geoc2geod libm p z wgs84A wgs84Eps2 with hg
  have b1 : (curv g.1 + g.2) * Real.cos g.1 = p := congrArg Prod.fst hb
  have b2 : (curv g.1 * (1 - wgs84Eps2) + g.2) * Real.sin g.1 = z := congrArg Prod.snd hb
  have hc := cos_nonneg_abs h1
  have hcurv : 0 < curv g.1 := by
    refine div_pos wgs84A_pos (Real.sqrt_pos.mpr ?_)
    have hs := Real.sin_sq_add_cos_sq g.1
    have h2 := eps2_lt
    nlinarith [sq_nonneg (Real.cos g.1), mul_nonneg he.le (sq_nonneg (Real.sin g.1))]
  -- the sign of z equals the sign of the sine
  have hsin : Real.sqrt (p * p + z * (1 + wgs84Eps2 * t) * (z * (1 + wgs84Eps2 * t))) * Real.sin g.1 =
      z * (1 + wgs84Eps2 * t) := by
    have : g.1 = atan2 (z * (1 + wgs84Eps2 * t)) p := by
      rw [hg]; unfold geoc2geod; rw [hk]; rfl
    rw [this]; exact sin_atan2 _ _
  have hcos : Real.sqrt (p * p + z * (1 + wgs84Eps2 * t) * (z * (1 + wgs84Eps2 * t))) * Real.cos g.1 =
      p := by
    have : g.1 = atan2 (z * (1 + wgs84Eps2 * t)) p := by
      rw [hg]; unfold geoc2geod; rw [hk]; rfl
    rw [this]; exact cos_atan2 _ _
  set D := Real.sqrt (p * p + z * (1 + wgs84Eps2 * t) * (z * (1 + wgs84Eps2 * t)))
  have hD0 : 0 ≤ D := Real.sqrt_nonneg _
  by_cases hz : z = 0
  · -- on the equator
    have hp0 : p ≠ 0 := h.ne.resolve_right (not_not.mpr hz)
    have hpp : 0 < p := lt_of_le_of_ne hp (Ne.symm hp0)
    have hDne : D ≠ 0 := by intro h0; rw [h0, zero_mul] at hcos; exact hp0 hcos.symm
    have hs0 : Real.sin g.1 = 0 := by
      rw [hz, zero_mul] at hsin
      exact (mul_eq_zero.mp hsin).resolve_left hDne
    have hc1 : Real.cos g.1 = 1 := by
      have := Real.sin_sq_add_cos_sq g.1
      rw [hs0] at this
      nlinarith
    rw [hc1, mul_one] at b1
    have hcu : curv g.1 = wgs84A := by unfold curv; rw [hs0]; simp
    rw [hcu] at b1 ⊢
    unfold Far at h
    rw [hz] at h
    have : wgs84A * wgs84Eps2 < p := by
      refine lt_of_pow_lt_pow_left₀ 2 hpp.le ?_
      linarith
    linarith
  · have hzk : z * (1 + wgs84Eps2 * t) ≠ 0 := mul_ne_zero hz hkp.ne'
    have hDne : D ≠ 0 := by intro h0; rw [h0, zero_mul] at hsin; exact hzk hsin.symm
    have hDp : 0 < D := lt_of_le_of_ne hD0 (Ne.symm hDne)
    have hsne : Real.sin g.1 ≠ 0 := by
      intro h0; rw [h0, mul_zero] at hsin; exact hzk hsin.symm
    have : (curv g.1 * (1 - wgs84Eps2) + g.2) * (1 + wgs84Eps2 * t) * Real.sin g.1 = D * Real.sin g.1 := by
      rw [hsin, ← b2]; ring
    have := mul_right_cancel₀ hsne this
    have : 0 < (curv g.1 * (1 - wgs84Eps2) + g.2) * (1 + wgs84Eps2 * t) := by rw [this]; exact hDp
    exact pos_of_mul_pos_left this hkp.le

/-! ### Domain of the conversions -/

/-- Longitude recoverable from the position. -/
def LonOk (lat lon : ℝ) : Prop := |lat| ≤ 90 ∧ -180 < lon ∧ lon ≤ 180 ∧ (|lat| < 90 ∨ lon = 0)

/-- Positions on which the conversions are defined and one to one. -/
def Dom : CT → V3 ℝ → Prop
  | .geodetic, v => LonOk v.x v.y ∧
      0 < curv (dg2rad libm * v.x) * (1 - wgs84Eps2) + v.z ∧
      Far ((curv (dg2rad libm * v.x) + v.z) * Real.cos (dg2rad libm * v.x))
        ((curv (dg2rad libm * v.x) * (1 - wgs84Eps2) + v.z) * Real.sin (dg2rad libm * v.x))
  | .spherical, v => LonOk v.x v.y ∧ 0 < v.z ∧
      Far (v.z * Real.cos (dg2rad libm * v.x)) (v.z * Real.sin (dg2rad libm * v.x))
  | .cartesian, v => Far (Real.sqrt (v.x * v.x + v.y * v.y)) v.z

theorem curv_pos (φ : ℝ) : 0 < curv φ := by
  refine div_pos wgs84A_pos (Real.sqrt_pos.mpr ?_)
  have hs := Real.sin_sq_add_cos_sq φ
  have h2 := eps2_lt
  have he := eps2_pos
  nlinarith [sq_nonneg (Real.cos φ), mul_nonneg he.le (sq_nonneg (Real.sin φ))]

theorem norm2d_eq (x y : ℝ) : norm2d libm x y = Real.sqrt (x * x + y * y) := rfl

theorem norm2d_nonneg (x y : ℝ) : 0 ≤ norm2d libm x y := Real.sqrt_nonneg _

/-- Polar form with a non-negative radius. -/
theorem polar_norm {p : ℝ} (hp : 0 ≤ p) (l : ℝ) :
    norm2d libm (p * Real.cos l) (p * Real.sin l) = p := by
  rw [norm2d_eq, show p * Real.cos l * (p * Real.cos l) + p * Real.sin l * (p * Real.sin l) = p ^ 2 by
    linear_combination p ^ 2 * Real.sin_sq_add_cos_sq l]
  exact Real.sqrt_sq hp

/-- Longitude of a position given by polar coordinates. -/
theorem lon_recover {p lat lon : ℝ} (h : LonOk lat lon) (hp : 0 ≤ p) (hp0 : |lat| < 90 → 0 < p) :
    rad2dg libm * atan2 (p * Real.sin (dg2rad libm * lon)) (p * Real.cos (dg2rad libm * lon)) = lon := by
  obtain ⟨-, h1, h2, h3⟩ := h
  obtain ⟨l1, l2⟩ := lon_rad h1 h2
  rcases hp.lt_or_eq with hp | hp
  · rw [atan2_polar hp l1 l2, deg_rad]
  · have h0 : lon = 0 := h3.resolve_left (fun h => absurd (hp0 h) (by rw [← hp]; exact lt_irrefl 0))
    rw [← hp, h0]
    simp only [zero_mul]
    have : atan2 0 0 = 0 := by unfold atan2; exact Complex.arg_zero
    rw [this, mul_zero]

theorem arcsin_ratio {r th : ℝ} (hr : 0 < r) (h : |th| ≤ Real.pi / 2) :
    Real.arcsin (r * Real.sin th / r) = th := by
  rw [mul_div_assoc, mul_div_cancel₀ _ hr.ne']
  rw [abs_le] at h
  exact Real.arcsin_sin (by linarith) h.2

theorem norm3d_eq (x y z : ℝ) : norm3d libm x y z = Real.sqrt (x * x + y * y + z * z) := rfl

theorem norm3d_norm2d (x y z : ℝ) : norm3d libm x y z = norm2d libm (norm2d libm x y) z := by
  rw [norm3d_eq, norm2d_eq, norm2d_eq, Real.mul_self_sqrt (add_nonneg (mul_self_nonneg x) (mul_self_nonneg y))]

/-- Latitude of a position of the meridian half plane. -/
theorem arcsin_atan2 {p z : ℝ} (hp : 0 ≤ p) (h : 0 < p * p + z * z) :
    Real.arcsin (z / norm2d libm p z) = atan2 z p := by
  have hr : 0 < norm2d libm p z := Real.sqrt_pos.mpr h
  have hs := sin_atan2 z p
  rw [← norm2d_eq] at hs
  conv_lhs => rw [← hs]
  rw [hs]
  have : z / norm2d libm p z = norm2d libm p z * Real.sin (atan2 z p) / norm2d libm p z := by rw [hs]
  rw [this]
  exact arcsin_ratio hr (atan2_abs_le z p hp)

/-- Cartesian position given by the coordinates in the meridian plane. -/
theorem cart2sph_eq {p z l : ℝ} (hp : 0 ≤ p) (h : 0 < p * p + z * z) :
    cart2sph libm (p * Real.cos l) (p * Real.sin l) z =
      ⟨atan2 z p, atan2 (p * Real.sin l) (p * Real.cos l), norm2d libm p z⟩ := by
  unfold cart2sph
  simp only [norm3d_norm2d, polar_norm hp]
  congr 1
  exact arcsin_atan2 hp h

/-- Every Cartesian position has such coordinates. -/
theorem cart_polar (x y : ℝ) : x = norm2d libm x y * Real.cos (atan2 y x) ∧
    y = norm2d libm x y * Real.sin (atan2 y x) :=
  ⟨(cos_atan2 y x).symm, (sin_atan2 y x).symm⟩

theorem dom_lat_cos {lat lon : ℝ} (h : LonOk lat lon) : 0 ≤ Real.cos (dg2rad libm * lat) :=
  cos_nonneg_abs (lat_rad h.1)

/-- Meridian plane coordinates and longitude (radians) of a position. -/
noncomputable def mer : CT → V3 ℝ → ℝ × ℝ × ℝ
  | .geodetic, v => ((curv (dg2rad libm * v.x) + v.z) * Real.cos (dg2rad libm * v.x),
      (curv (dg2rad libm * v.x) * (1 - wgs84Eps2) + v.z) * Real.sin (dg2rad libm * v.x), dg2rad libm * v.y)
  | .spherical, v => (v.z * Real.cos (dg2rad libm * v.x), v.z * Real.sin (dg2rad libm * v.x), dg2rad libm * v.y)
  | .cartesian, v => (norm2d libm v.x v.y, v.z, atan2 v.y v.x)

/-- Position from the meridian plane coordinates. -/
noncomputable def ofMer : CT → ℝ × ℝ × ℝ → V3 ℝ
  | .geodetic, m => ⟨rad2dg libm * (geoc2geod libm m.1 m.2.1 wgs84A wgs84Eps2).1, rad2dg libm * m.2.2,
      (geoc2geod libm m.1 m.2.1 wgs84A wgs84Eps2).2⟩
  | .spherical, m => ⟨rad2dg libm * atan2 m.2.1 m.1, rad2dg libm * m.2.2, norm2d libm m.1 m.2.1⟩
  | .cartesian, m => ⟨m.1 * Real.cos m.2.2, m.1 * Real.sin m.2.2, m.2.1⟩

/-- Valid meridian plane coordinates. -/
structure Mer (m : ℝ × ℝ × ℝ) : Prop where
  p : 0 ≤ m.1
  far : Far m.1 m.2.1
  l1 : -Real.pi < m.2.2
  l2 : m.2.2 ≤ Real.pi
  l3 : m.1 = 0 → m.2.2 = 0

theorem lonOk_mer {lat lon : ℝ} (h : LonOk lat lon) {c : ℝ}
    (h0 : |lat| < 90 → c ≠ 0) : (-Real.pi < dg2rad libm * lon ∧ dg2rad libm * lon ≤ Real.pi) ∧
      (c = 0 → dg2rad libm * lon = 0) := by
  refine ⟨lon_rad h.2.1 h.2.2.1, fun hc => ?_⟩
  rcases h.2.2.2 with h | h
  · exact absurd hc (h0 h)
  · rw [h, mul_zero]

theorem mer_ok {ct : CT} {v : V3 ℝ} (h : Dom ct v) : Mer (mer ct v) := by
  cases ct
  · obtain ⟨h1, h2, h3⟩ := h
    have hc := dom_lat_cos h1
    have hN := curv_pos (dg2rad libm * v.x)
    have hs : 0 < curv (dg2rad libm * v.x) + v.z := by
      have := mul_pos hN eps2_pos
      nlinarith
    have h0 : |v.x| < 90 → (curv (dg2rad libm * v.x) + v.z) * Real.cos (dg2rad libm * v.x) ≠ 0 :=
      fun hl => (mul_pos hs (cos_pos_abs (lat_rad_lt hl))).ne'
    obtain ⟨⟨a, b⟩, c⟩ := lonOk_mer h1 h0
    exact ⟨mul_nonneg hs.le hc, h3, a, b, c⟩
  · obtain ⟨h1, h2, h3⟩ := h
    have hc := dom_lat_cos h1
    have h0 : |v.x| < 90 → v.z * Real.cos (dg2rad libm * v.x) ≠ 0 :=
      fun hl => (mul_pos h2 (cos_pos_abs (lat_rad_lt hl))).ne'
    obtain ⟨⟨a, b⟩, c⟩ := lonOk_mer h1 h0
    exact ⟨mul_nonneg h2.le hc, h3, a, b, c⟩
  · refine ⟨norm2d_nonneg _ _, h, (atan2_mem _ _).1, (atan2_mem _ _).2, fun h0 => ?_⟩
    change norm2d libm v.x v.y = 0 at h0
    obtain ⟨hx, hy⟩ := cart_polar v.x v.y
    rw [h0, zero_mul] at hx hy
    show atan2 v.y v.x = 0
    rw [hx, hy]
    exact Complex.arg_zero

/-- The meridian plane coordinates determine the position. -/
theorem ofMer_mer {ct : CT} {v : V3 ℝ} (h : Dom ct v) : ofMer ct (mer ct v) = v := by
  cases ct
  · obtain ⟨h1, h2, h3⟩ := h
    have hg := geod_geoc_geod (φ := dg2rad libm * v.x) (elv := v.z) wgs84A_pos eps2_pos eps2_lt
      (lat_rad h1.1) h2 h3.outside
    have hg' : geoc2geod libm ((curv (dg2rad libm * v.x) + v.z) * Real.cos (dg2rad libm * v.x))
      ((curv (dg2rad libm * v.x) * (1 - wgs84Eps2) + v.z) * Real.sin (dg2rad libm * v.x)) wgs84A wgs84Eps2 =
      (dg2rad libm * v.x, v.z) := hg
    simp only [ofMer, mer, hg', deg_rad]
  · obtain ⟨h1, h2, h3⟩ := h
    have hl := lat_rad h1.1
    rw [abs_le] at hl
    have hp := Real.pi_pos
    simp only [ofMer, mer, deg_rad, polar_norm h2.le,
      atan2_polar h2 (show -Real.pi < dg2rad libm * v.x by linarith) (by linarith)]
  · obtain ⟨hx, hy⟩ := cart_polar v.x v.y
    simp only [ofMer, mer]
    rw [← hx, ← hy]

/-- Valid meridian plane coordinates give positions of the domain with these
coordinates. -/
theorem mer_ofMer {m : ℝ × ℝ × ℝ} (h : Mer m) (ct : CT) : Dom ct (ofMer ct m) ∧ mer ct (ofMer ct m) = m := by
  obtain ⟨p, z, l⟩ := m
  have hlon := lon_deg h.l1 h.l2
  cases ct
  · obtain ⟨r1, r2⟩ := geoc2geod_range h.p h.far
    have hb := geoc_geod_geoc wgs84A_pos eps2_pos eps2_lt h.p h.far.outside
    have b1 : (curv (geoc2geod libm p z wgs84A wgs84Eps2).1 + (geoc2geod libm p z wgs84A wgs84Eps2).2) *
      Real.cos (geoc2geod libm p z wgs84A wgs84Eps2).1 = p := congrArg Prod.fst hb
    have b2 : (curv (geoc2geod libm p z wgs84A wgs84Eps2).1 * (1 - wgs84Eps2) +
      (geoc2geod libm p z wgs84A wgs84Eps2).2) * Real.sin (geoc2geod libm p z wgs84A wgs84Eps2).1 = z :=
      congrArg Prod.snd hb
    refine ⟨⟨⟨lat_deg r1, hlon.1, hlon.2, ?_⟩, ?_, ?_⟩, ?_⟩
    · by_cases hp : p = 0
      · right; show rad2dg libm * l = 0
        have e : l = 0 := h.l3 hp
        rw [e, mul_zero]
      · left
        refine lat_deg_lt (lt_of_le_of_ne r1 (fun he => hp ?_))
        rw [← b1]
        have : Real.cos (geoc2geod libm p z wgs84A wgs84Eps2).1 = 0 := by
          rcases abs_eq (by have := Real.pi_pos; positivity) |>.mp he with e | e
          · rw [e, Real.cos_pi_div_two]
          · rw [e, Real.cos_neg, Real.cos_pi_div_two]
        rw [this, mul_zero]
    · simp only [ofMer, rad_deg]; exact r2
    · simp only [ofMer, rad_deg, b1, b2]; exact h.far
    · simp only [ofMer, mer, rad_deg, b1, b2]
  · have hr : 0 < norm2d libm p z := Real.sqrt_pos.mpr h.far.pos
    have hc := cos_atan2 z p
    have hs := sin_atan2 z p
    rw [← norm2d_eq] at hc hs
    have r1 := atan2_abs_le z p h.p
    refine ⟨⟨⟨lat_deg r1, hlon.1, hlon.2, ?_⟩, hr, ?_⟩, ?_⟩
    · by_cases hp : p = 0
      · right; show rad2dg libm * l = 0
        have e : l = 0 := h.l3 hp
        rw [e, mul_zero]
      · left
        refine lat_deg_lt (lt_of_le_of_ne r1 (fun he => hp ?_))
        rw [← hc]
        have : Real.cos (atan2 z p) = 0 := by
          rcases abs_eq (by have := Real.pi_pos; positivity) |>.mp he with e | e
          · rw [e, Real.cos_pi_div_two]
          · rw [e, Real.cos_neg, Real.cos_pi_div_two]
        rw [this, mul_zero]
    · simp only [ofMer, rad_deg, hc, hs]; exact h.far
    · simp only [ofMer, mer, rad_deg, hc, hs]
  · have hn : norm2d libm (p * Real.cos l) (p * Real.sin l) = p := polar_norm h.p l
    refine ⟨?_, ?_⟩
    · show Far (norm2d libm (p * Real.cos l) (p * Real.sin l)) z
      rw [hn]; exact h.far
    · simp only [ofMer, mer, hn]
      congr 2
      rcases h.p.lt_or_eq with hp | hp
      · exact atan2_polar hp h.l1 h.l2
      · have hp0 : p = 0 := hp.symm
        rw [hp0]
        simp only [zero_mul]
        have e : l = 0 := h.l3 hp0
        rw [e]; exact Complex.arg_zero

/-- Every conversion goes through the meridian plane coordinates. -/
theorem getFconv_mer {i o : CT} {v : V3 ℝ} (h : Dom i v) : getFconv libm i o v = ofMer o (mer i v) := by
  have hm := mer_ok h
  by_cases hio : i = o
  · subst hio
    rw [ofMer_mer h]
    cases i <;> rfl
  · cases i <;> cases o <;> first | exact absurd rfl hio | skip
    · -- geodetic to spherical
      show convGeodSph libm v = _
      unfold convGeodSph
      simp only [ofMer, mer, geodetic2sph]
      rw [mul_comm _ (rad2dg libm), mul_comm _ (rad2dg libm)]
      rfl
    · show convGeodCart libm v = _
      rfl
    · rfl
    · rfl
    · show convCartGeod libm v = _
      rfl
    · show convCartSph libm v = _
      unfold convCartSph cart2sph
      simp only [ofMer, mer]
      have e : libm.asin (v.z / norm3d libm v.x v.y v.z) = atan2 v.z (norm2d libm v.x v.y) := by
        rw [norm3d_norm2d]; exact arcsin_atan2 hm.p hm.far.pos
      rw [e, mul_comm _ (rad2dg libm), mul_comm _ (rad2dg libm), norm3d_norm2d]
      rfl

theorem dom_conv {i o : CT} {v : V3 ℝ} (h : Dom i v) :
    Dom o (getFconv libm i o v) ∧ mer o (getFconv libm i o v) = mer i v := by
  rw [getFconv_mer h]
  exact mer_ofMer (mer_ok h) o

end Verif.Spec
