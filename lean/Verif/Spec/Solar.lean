/-
Specification of the sub-solar point and of the magnetic local time.
-/
import Verif.Spec.Libm

namespace Verif.Spec.Solar

/-- Degrees to radians. -/
noncomputable def rad (x : ℝ) : ℝ := x * Real.pi / 180

/-! Low precision position of the Sun, The Astronomical Almanac 1996, page C24: angles in degrees as
functions of the mean longitude `l0` at the epoch 2000-01-01 12:00 UT and of the number `n` of days since the epoch. -/

/-- Mean longitude at the epoch of the Almanac, apex.f90 line 2664 (comment). -/
noncomputable def almanac : ℝ := 280.461

noncomputable def meanLongitude (l0 n : ℝ) : ℝ := l0 + 0.9856474 * n
noncomputable def meanAnomaly (n : ℝ) : ℝ := 357.528 + 0.9856003 * n
noncomputable def eclipticLongitude (l0 n : ℝ) : ℝ :=
  meanLongitude l0 n + 1.915 * Real.sin (rad (meanAnomaly n)) + 0.020 * Real.sin (2 * rad (meanAnomaly n))
noncomputable def obliquity (n : ℝ) : ℝ := 23.439 - 0.0000004 * n

/-- Direction of the Sun in the equatorial frame. -/
noncomputable def sunDirection (l0 n : ℝ) : ℝ × ℝ × ℝ :=
  (Real.cos (rad (eclipticLongitude l0 n)),
   Real.cos (rad (obliquity n)) * Real.sin (rad (eclipticLongitude l0 n)),
   Real.sin (rad (obliquity n)) * Real.sin (rad (eclipticLongitude l0 n)))

/-- Angle of the Greenwich meridian (degrees) at the time `t`, days since 2000-01-01 00:00 UT: the mean Sun, of the
mean longitude `l`, is above the meridian at noon. -/
noncomputable def greenwich (l t : ℝ) : ℝ := l + 180 + 360 * t

/-- Vector seen from a frame rotated around the third axis by an angle in degrees. -/
noncomputable def rotated (a : ℝ) (v : ℝ × ℝ × ℝ) : ℝ × ℝ × ℝ :=
  (Real.cos (rad a) * v.1 + Real.sin (rad a) * v.2.1, -Real.sin (rad a) * v.1 + Real.cos (rad a) * v.2.1, v.2.2)

/-- Direction of the latitude and longitude in degrees. -/
noncomputable def direction (lat lon : ℝ) : ℝ × ℝ × ℝ :=
  (Real.cos (rad lat) * Real.cos (rad lon), Real.cos (rad lat) * Real.sin (rad lon), Real.sin (rad lat))

/-- Vector seen from the frame with the third axis towards the colatitude and longitude in degrees. -/
noncomputable def poleFrame (colat lon : ℝ) (v : ℝ × ℝ × ℝ) : ℝ × ℝ × ℝ :=
  let w := rotated lon v
  (Real.cos (rad colat) * w.1 - Real.sin (rad colat) * w.2.2, w.2.1,
   Real.sin (rad colat) * w.1 + Real.cos (rad colat) * w.2.2)

/-- Length of the horizontal part. -/
noncomputable def horizontal (v : ℝ × ℝ × ℝ) : ℝ := Real.sqrt (v.1 * v.1 + v.2.1 * v.2.1)

/-- `h` is an hour of the day, and a point at the longitude `lon` (degrees) has the local time `h` if the Sun is at the longitude `sun`. -/
def IsLocalTime (lon sun h : ℝ) : Prop := 0 ≤ h ∧ h < 24 ∧ ∃ k : ℤ, 15 * (h - 12) = lon - sun + 360 * k

/-- `(lat, lon)` is the sub-solar point at the time `t`, if the Sun is at its position of the days `n` since the epoch. -/
structure IsSubsolar (l0 n t lat lon : ℝ) : Prop where
  lat_range : |lat| ≤ 90
  lon_range : |lon| ≤ 180
  direction_eq : direction lat lon = rotated (greenwich (meanLongitude l0 n) t) (sunDirection l0 n)

/-- Values at nodes extended to a piecewise linear function with the slope `rate` after the last node. -/
structure IsExtended (nodes : List ℝ) (v : ℕ → ℝ) (rate : ℝ) (f : ℝ → ℝ) : Prop where
  between : ∀ k (h : k + 1 < nodes.length), ∀ e, nodes[k] ≤ e → e ≤ nodes[k + 1] →
    f e = v k + (e - nodes[k]) / (nodes[k + 1] - nodes[k]) * (v (k + 1) - v k)
  after : ∀ h : 0 < nodes.length, ∀ e, nodes[nodes.length - 1] ≤ e →
    f e = v (nodes.length - 1) + (e - nodes[nodes.length - 1]) * rate

/-- `mlon` (degrees) is the longitude of the direction `v`. -/
def IsLongitude (v : ℝ × ℝ × ℝ) (mlon : ℝ) : Prop :=
  |mlon| ≤ 180 ∧ v.1 = horizontal v * Real.cos (rad mlon) ∧ v.2.1 = horizontal v * Real.sin (rad mlon)

/-- The days since the epoch of the position of the Sun: those of the almanac from 2000 on and at the integer times; else one day later. -/
noncomputable def sunDays (t : ℝ) : ℝ := if 0 ≤ t ∨ (⌊t⌋ : ℝ) = t then t - 1 / 2 else t + 1 / 2

/-- `(colat, lon)` is the pole opposite to the dipole given by the coefficients `g10`, `g11`, `h11`. -/
structure IsPole (g10 g11 h11 colat lon : ℝ) : Prop where
  colat_nonneg : 0 ≤ colat
  colat_le : colat ≤ 180
  lon_range : |lon| ≤ 180
  direction_eq : direction (90 - colat) lon =
    (-g11 / Real.sqrt (g10 ^ 2 + g11 ^ 2 + h11 ^ 2), -h11 / Real.sqrt (g10 ^ 2 + g11 ^ 2 + h11 ^ 2), -g10 / Real.sqrt (g10 ^ 2 + g11 ^ 2 + h11 ^ 2))

end Verif.Spec.Solar
