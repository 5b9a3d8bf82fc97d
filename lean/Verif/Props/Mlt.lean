/-
C60, C61, C62: magnetic local time, sub-solar point, dipole pole.
-/
import Verif.Lemmas.Mlt
import Verif.Lemmas.Geo
import Verif.Spec.Solar
import Verif.Props.Qd
import Mathlib.Analysis.SpecialFunctions.Trigonometric.Bounds
import Mathlib.Analysis.Real.Pi.Bounds

set_option linter.unusedSectionVars false

namespace Verif.Props

open Verif.Mlt Verif.Geo Verif.Time Verif.Spec Verif.Spec.Solar

/-! ### Angles -/

theorem rad_add (a b : ℝ) : rad (a + b) = rad a + rad b := by unfold rad; ring
theorem rad_sub (a b : ℝ) : rad (a - b) = rad a - rad b := by unfold rad; ring
theorem rad_360 (k : ℤ) : rad (360 * k) = k * (2 * Real.pi) := by unfold rad; ring

theorem sin_rad_turns (a : ℝ) (k : ℤ) : Real.sin (rad (a + 360 * k)) = Real.sin (rad a) := by
  rw [rad_add, rad_360, Real.sin_add_int_mul_two_pi]

theorem cos_rad_turns (a : ℝ) (k : ℤ) : Real.cos (rad (a + 360 * k)) = Real.cos (rad a) := by
  rw [rad_add, rad_360, Real.cos_add_int_mul_two_pi]

theorem dg_rad (x : ℝ) : x * dg2rad libm = rad x := by
  show x * (Real.pi / 180) = _; unfold rad; ring

theorem rad_dg (x : ℝ) : rad (x * rad2dg libm) = x := by
  show rad (x * (180 * (1 / Real.pi))) = x
  have := Real.pi_ne_zero
  unfold rad; field_simp

theorem deg_abs_le {x b : ℝ} (h : |x| ≤ b * Real.pi / 180) : |x * rad2dg libm| ≤ b := by
  show |x * (180 * (1 / Real.pi))| ≤ b
  have := Real.pi_pos
  rw [abs_mul, abs_of_pos (show (0 : ℝ) < 180 * (1 / Real.pi) by positivity)]
  calc |x| * (180 * (1 / Real.pi)) ≤ (b * Real.pi / 180) * (180 * (1 / Real.pi)) := by gcongr
    _ = b := by field_simp

theorem reduce360_spec (x : ℝ) : |reduce360 x| ≤ 180 ∧ ∃ k : ℤ, reduce360 x = x + 360 * k := by
  have h := nint_dist (x / 360)
  constructor
  · unfold reduce360
    have : x - ((360 * nint (x / 360) : ℤ) : ℝ) = 360 * (x / 360 - nint (x / 360)) := by push_cast; ring
    rw [this, abs_mul, abs_of_pos (by norm_num : (0 : ℝ) < 360)]
    linarith
  · exact ⟨-nint (x / 360), by unfold reduce360; push_cast; ring⟩

/-! ### Sub-solar point -/

/-- Right ascension and declination. -/
theorem equatorial_spec (l g n : ℝ) :
    let lam := l + 1.915 * Real.sin (rad g) + 0.020 * Real.sin (2 * rad g)
    let e := equatorial libm l g n
    |e.2| ≤ 90 ∧ direction e.2 e.1 = (Real.cos (rad lam), Real.cos (rad (obliquity n)) * Real.sin (rad lam),
      Real.sin (rad (obliquity n)) * Real.sin (rad lam)) := by
  intro lam e
  have h1 : e = (atan2 (Real.cos (rad (obliquity n)) * Real.sin (rad lam)) (Real.cos (rad lam)) * rad2dg libm,
      Real.arcsin (Real.sin (rad (obliquity n)) * Real.sin (rad lam)) * rad2dg libm) := by
    have el : l + 1915 / 1000 * Real.sin (rad g) + 20 / 1000 * Real.sin (2 * rad g) = lam := by
      simp only [lam]; norm_num
    have eo : (23439 / 1000 - 4 / 10000000 * n : ℝ) = obliquity n := by unfold obliquity; norm_num
    show equatorial libm l g n = _
    unfold equatorial
    simp only [dg_rad]
    show (atan2 (Real.cos (rad (23439 / 1000 - 4 / 10000000 * n)) *
      Real.sin (rad (l + 1915 / 1000 * Real.sin (rad g) + 20 / 1000 * Real.sin (2 * rad g))))
      (Real.cos (rad (l + 1915 / 1000 * Real.sin (rad g) + 20 / 1000 * Real.sin (2 * rad g)))) * rad2dg libm, libm.asin (libm.sin (rad (23439 / 1000 - 4 / 10000000 * n)) * _) * _) = _
    rw [el, eo]
    refine Prod.ext rfl ?_
    show Real.arcsin (Real.sin (rad (obliquity n)) * Real.sin (rad (l + 1915 / 1000 * Real.sin (rad g) + 20 / 1000 * Real.sin (2 * rad g)))) *
      rad2dg libm = _
    rw [el]
  obtain ⟨x, hx⟩ : ∃ x, x = Real.cos (rad lam) := ⟨_, rfl⟩
  obtain ⟨y, hy⟩ : ∃ y, y = Real.cos (rad (obliquity n)) * Real.sin (rad lam) := ⟨_, rfl⟩
  obtain ⟨z, hz⟩ : ∃ z, z = Real.sin (rad (obliquity n)) * Real.sin (rad lam) := ⟨_, rfl⟩
  have hxyz : x * x + y * y = 1 - z ^ 2 := by
    have s1 := Real.sin_sq_add_cos_sq (rad lam)
    have s2 := Real.sin_sq_add_cos_sq (rad (obliquity n))
    rw [hx, hy, hz]
    have : Real.cos (rad lam) ^ 2 = 1 - Real.sin (rad lam) ^ 2 := by linarith
    have h2 : Real.cos (rad (obliquity n)) ^ 2 = 1 - Real.sin (rad (obliquity n)) ^ 2 := by linarith
    calc _ = Real.cos (rad lam) ^ 2 + Real.cos (rad (obliquity n)) ^ 2 * Real.sin (rad lam) ^ 2 := by ring
      _ = _ := by rw [this, h2]; ring
  have hz1 : z ^ 2 ≤ 1 := by nlinarith [mul_self_nonneg x, mul_self_nonneg y]
  have hz2 := abs_le.mp ((sq_le_one_iff_abs_le_one z).mp hz1)
  rw [h1, ← hx, ← hy, ← hz]
  constructor
  · apply deg_abs_le
    rw [show (90 : ℝ) * Real.pi / 180 = Real.pi / 2 by ring]
    exact abs_le.mpr ⟨Real.neg_pi_div_two_le_arcsin z, Real.arcsin_le_pi_div_two z⟩
  · unfold direction
    simp only [rad_dg]
    rw [Real.sin_arcsin hz2.1 hz2.2, Real.cos_arcsin, ← hxyz, cos_atan2, sin_atan2]

/-- Mean longitude at the epoch used by SUBSOL: -79.549 + 360, apex.f90 line 2671. -/
noncomputable def used : ℝ := 280.451

/-- SUBSOL for the day `day` of the year, the time of the day `s` in seconds: the direction of the Sun of the time `n`. -/
theorem subsol_spec (y iday ihr imn : Int) (sec : ℝ) (h1 : 1601 ≤ y) (h2 : y ≤ 2100) :
    let ut : ℝ := ihr * 3600 + imn * 60 + sec
    let n : ℝ := yearStart y + (iday - 1) + ut / 86400 - 1 / 2
    ∃ lat lon, subsol libm y iday ihr imn sec = some (lat, lon) ∧ |lat| ≤ 90 ∧ |lon| ≤ 180 ∧
      direction lat lon = rotated (meanLongitude used n + 180 + ut / 240) (sunDirection used n) := by
  intro ut n
  obtain ⟨nl, e1, e2⟩ := nleap_spec y h1 h2
  unfold subsol
  rw [e1]
  have e2' : (365 * (y - 2000) + nl : ℝ) = yearStart y := by exact_mod_cast e2
  have hl : meanSun (y - 2000) nl iday ihr imn sec =
      (meanLongitude used n + 360 * ((-(y - 1999) : ℤ) : ℝ), meanAnomaly n + 360 * ((-(y - 1999) : ℤ) : ℝ), ut, n) := by
    unfold meanSun meanLongitude meanAnomaly used
    have hn : n = 365 * (y - 2000) + nl + (iday - 1) + ut / 86400 - 1 / 2 := by simp only [n]; rw [← e2']
    refine Prod.ext ?_ (Prod.ext ?_ (Prod.ext ?_ ?_))
    · simp only [hn, ut]; push_cast; ring
    · simp only [hn, ut]; push_cast; ring
    · simp only [ut]; push_cast; ring
    · simp only [hn, ut]; push_cast; ring
  refine ⟨_, _, rfl, ?_⟩
  rw [hl]
  obtain ⟨k, hk⟩ : ∃ k : ℤ, k = -(y - 1999) := ⟨_, rfl⟩
  rw [← hk]
  obtain ⟨he1, he2⟩ := equatorial_spec (meanLongitude used n + 360 * k) (meanAnomaly n + 360 * k) n
  obtain ⟨e, hee⟩ : ∃ e, e = equatorial libm (meanLongitude used n + 360 * k) (meanAnomaly n + 360 * k) n := ⟨_, rfl⟩
  simp only
  rw [← hee] at he1 he2 ⊢
  have s1 : Real.sin (rad (meanAnomaly n + 360 * k)) = Real.sin (rad (meanAnomaly n)) := sin_rad_turns _ k
  have s2 : Real.sin (2 * rad (meanAnomaly n + 360 * k)) = Real.sin (2 * rad (meanAnomaly n)) := by
    rw [rad_add, rad_360, show 2 * (rad (meanAnomaly n) + k * (2 * Real.pi)) = 2 * rad (meanAnomaly n) + ((2 * k : ℤ) : ℝ) * (2 * Real.pi) by push_cast; ring,
      Real.sin_add_int_mul_two_pi]
  have hlam : meanLongitude used n + 360 * k + 1.915 * Real.sin (rad (meanAnomaly n + 360 * k)) + 0.020 * Real.sin (2 * rad (meanAnomaly n + 360 * k)) =
      eclipticLongitude used n + 360 * k := by
    rw [s1, s2]; unfold eclipticLongitude; ring
  rw [hlam, sin_rad_turns, cos_rad_turns] at he2
  have he2' : direction e.2 e.1 = sunDirection used n := he2
  refine ⟨he1, (reduce360_spec _).1, ?_⟩
  obtain ⟨k1, hk1⟩ := (reduce360_spec (meanLongitude used n + 360 * k - e.1)).2
  rw [hk1]
  obtain ⟨k2, hk2⟩ := (reduce360_spec (180 - (ut / 240 + (meanLongitude used n + 360 * k - e.1 + 360 * k1)))).2
  rw [hk2]
  have hang : 180 - (ut / 240 + (meanLongitude used n + 360 * k - e.1 + 360 * k1)) + 360 * k2 =
      (e.1 - (meanLongitude used n + 180 + ut / 240)) + 360 * ((1 - k - k1 + k2 : ℤ) : ℝ) := by push_cast; ring
  rw [hang]
  unfold direction
  rw [sin_rad_turns, cos_rad_turns, rad_sub, Real.cos_sub, Real.sin_sub, ← he2']
  unfold rotated direction
  refine Prod.ext ?_ (Prod.ext ?_ rfl)
  · simp only; ring
  · simp only; ring

/-- Times handled by `eval_subsol`: the years 1601 to 2100. -/
def Supported (t : ℝ) : Prop := (yearStart 1601 : ℝ) ≤ t ∧ t < (yearStart 2101 : ℝ)

theorem supported_floor {t : ℝ} (h : Supported t) : yearStart 1583 ≤ ⌊t⌋ ∧ 1601 ≤ yearOf ⌊t⌋ ∧ yearOf ⌊t⌋ ≤ 2100 := by
  have e0 : yearStart 1583 = -152306 := by decide
  have e1 : yearStart 1601 = -145731 := by decide
  have e2 : yearStart 2101 = 36890 := by decide
  have h1 : yearStart 1601 ≤ ⌊t⌋ := Int.le_floor.mpr h.1
  have h2 : ⌊t⌋ < yearStart 2101 := Int.floor_lt.mpr h.2
  have hf : firstDay ≤ ⌊t⌋ := by unfold firstDay; omega
  obtain ⟨b1, b2⟩ := C07_year_bracket ⌊t⌋ hf
  obtain ⟨q, n, hq, hn, hyq, -, -, -⟩ := decomp ⌊t⌋ hf
  have hy : -4799 ≤ yearOf ⌊t⌋ := by rw [hyq]; unfold yQ; split <;> omega
  refine ⟨by omega, ?_, ?_⟩
  · by_contra hc
    have := C07_year_start_mono (yearOf ⌊t⌋) 1601 hy (by omega)
    omega
  · by_contra hc
    have := C07_year_start_mono 2100 (yearOf ⌊t⌋) (by omega) (by omega)
    have e3 : yearStart (2100 + 1) = 36890 := by decide
    omega

/-- The time for which the position of the Sun is calculated. -/
theorem subsolAt_spec (t : ℝ) (h : Supported t) :
    let n : ℝ := trunc t + (t - ⌊t⌋) - 1 / 2
    ∃ lat lon, subsolAt libm t = some (lat, lon) ∧ IsSubsolar used n t lat lon := by
  intro n
  obtain ⟨h1, h2, h3⟩ := supported_floor h
  obtain ⟨c, e1, e2, e3, -⟩ := tmjdInv_spec t h1
  have ey : c.year = yearOf ⌊t⌋ := congrArg Prod.fst e2
  have hdoy : dayOfYear t c.year = trunc t - yearStart c.year + 1 := by
    unfold dayOfYear
    rw [tmjdFwd_start _ (by rw [ey]; omega), nint_int]
  obtain ⟨lat, lon, r1, r2, r3, r4⟩ := subsol_spec c.year (dayOfYear t c.year) c.hour c.minute c.sec (by omega) (by omega)
  refine ⟨lat, lon, ?_, r2, r3, ?_⟩
  · unfold subsolAt
    rw [e1]
    exact r1
  · rw [r4, hdoy, e3]
    have en : (yearStart c.year : ℝ) + (((trunc t - yearStart c.year + 1 : ℤ) : ℝ) - 1) + (t - ⌊t⌋) * 86400 / 86400 - 1 / 2 = n := by
      simp only [n]; push_cast; ring
    rw [en]
    have ea : meanLongitude used n + 180 + (t - ⌊t⌋) * 86400 / 240 = greenwich (meanLongitude used n) t + 360 * ((-⌊t⌋ : ℤ) : ℝ) := by
      unfold greenwich; push_cast; ring
    rw [ea]
    unfold rotated
    rw [sin_rad_turns, cos_rad_turns]

/-- C61: for the times since 2000, and for the beginnings of all days of the years 1601 to 2100, the sub-solar point is the
direction of the Sun seen from the rotating Earth; latitude and longitude are within their ranges. -/
theorem C61_direction (t : ℝ) (h : Supported t) (ht : 0 ≤ t ∨ (⌊t⌋ : ℝ) = t) :
    ∃ lat lon, subsolAt libm t = some (lat, lon) ∧ IsSubsolar used (t - 1 / 2) t lat lon := by
  obtain ⟨lat, lon, r1, r4⟩ := subsolAt_spec t h
  have hn : (trunc t : ℝ) + (t - ⌊t⌋) - 1 / 2 = t - 1 / 2 := by
    have : trunc t = ⌊t⌋ := by
      unfold trunc
      rcases ht with ht | ht
      · rw [if_pos ht]
      · split
        · rfl
        · rw [← ht, ← Int.cast_neg, Int.floor_intCast, Int.floor_intCast]; ring
    rw [this]; ring
  rw [hn] at r4
  exact ⟨lat, lon, r1, r4⟩

/-- C61: for the other times before 2000 the declination and the equation of time are those of the following day.
(The claim of `C61_direction` is false for them, see `C61_equinox`.) -/
theorem C61_before_2000_partial (t : ℝ) (h : Supported t) (h0 : t < 0) (hi : (⌊t⌋ : ℝ) ≠ t) :
    ∃ lat lon, subsolAt libm t = some (lat, lon) ∧ IsSubsolar used (t + 1 / 2) t lat lon := by
  obtain ⟨lat, lon, r1, r4⟩ := subsolAt_spec t h
  have hn : (trunc t : ℝ) + (t - ⌊t⌋) - 1 / 2 = t + 1 / 2 := by
    have : trunc t = ⌊t⌋ + 1 := by
      unfold trunc
      rw [if_neg (by linarith)]
      have f1 := lt_of_le_of_ne (Int.floor_le t) hi
      have f2 := Int.lt_floor_add_one t
      rw [neg_eq_iff_eq_neg, Int.floor_eq_iff]
      push_cast
      constructor <;> linarith
    rw [this]; push_cast; ring
  rw [hn] at r4
  exact ⟨lat, lon, r1, r4⟩

theorem sin_rad_pos {x : ℝ} (h0 : 0 < x) (h1 : x < 180) : 0 < Real.sin (rad x) := by
  have := Real.pi_pos
  apply Real.sin_pos_of_pos_of_lt_pi
  · unfold rad; positivity
  · unfold rad; rw [div_lt_iff₀ (by norm_num)]; nlinarith

theorem sin_rad_neg {x : ℝ} (h0 : x < 0) (h1 : -180 < x) : Real.sin (rad x) < 0 := by
  have := sin_rad_pos (x := -x) (by linarith) (by linarith)
  rw [show rad (-x) = -rad x by unfold rad; ring, Real.sin_neg] at this
  linarith

theorem lat_pos {lat : ℝ} (h : |lat| ≤ 90) (h2 : 0 < Real.sin (rad lat)) : 0 < lat := by
  rw [abs_le] at h
  by_contra hc
  rcases eq_or_lt_of_le (not_lt.mp hc) with h3 | h3
  · rw [h3] at h2; simp [rad] at h2
  · have := sin_rad_neg h3 (by linarith); linarith

theorem lat_neg {lat : ℝ} (h : |lat| ≤ 90) (h2 : Real.sin (rad lat) < 0) : lat < 0 := by
  have := lat_pos (lat := -lat) (by rwa [abs_neg]) (by rw [show rad (-lat) = -rad lat by unfold rad; ring, Real.sin_neg]; linarith)
  linarith

theorem subsolar_sin_lat {l0 n t lat lon : ℝ} (h : IsSubsolar l0 n t lat lon) :
    Real.sin (rad lat) = Real.sin (rad (obliquity n)) * Real.sin (rad (eclipticLongitude l0 n)) :=
  congrArg (fun v : ℝ × ℝ × ℝ => v.2.2) h.direction_eq

theorem obliquity_pos {n : ℝ} (h0 : -10 ^ 6 ≤ n) (h1 : n ≤ 10 ^ 6) : 0 < Real.sin (rad (obliquity n)) := by
  unfold obliquity
  apply sin_rad_pos <;> norm_num <;> linarith

theorem ecliptic_bounds (l0 n : ℝ) : |eclipticLongitude l0 n - meanLongitude l0 n| ≤ 1.935 := by
  unfold eclipticLongitude
  have h1 := Real.sin_le_one (rad (meanAnomaly n))
  have h2 := Real.neg_one_le_sin (rad (meanAnomaly n))
  have h3 := Real.sin_le_one (2 * rad (meanAnomaly n))
  have h4 := Real.neg_one_le_sin (2 * rad (meanAnomaly n))
  rw [abs_le]
  constructor <;> norm_num <;> linarith

/-- C61, negation: on 1999-03-20 at 15:07 UT the Sun is still south of the equator, the returned point is north of it. -/
theorem C61_equinox : ∃ lat lon, subsolAt libm (-286.37 : ℝ) = some (lat, lon) ∧ 0 < lat ∧
    ∀ lat' lon', IsSubsolar almanac (-286.37 - 1 / 2) (-286.37) lat' lon' → lat' < 0 := by
  have hs : Supported (-286.37) := by
    have e1 : yearStart 1601 = -145731 := by decide
    have e2 : yearStart 2101 = 36890 := by decide
    unfold Supported
    rw [e1, e2]
    constructor <;> norm_num
  have hfl : ⌊(-286.37 : ℝ)⌋ = -287 := by rw [Int.floor_eq_iff]; constructor <;> norm_num
  obtain ⟨lat, lon, r1, r2⟩ := C61_before_2000_partial (-286.37) hs (by norm_num) (by rw [hfl]; norm_num)
  refine ⟨lat, lon, r1, ?_, ?_⟩
  · apply lat_pos r2.lat_range
    rw [subsolar_sin_lat r2]
    apply mul_pos (obliquity_pos (by norm_num) (by norm_num))
    have hb := ecliptic_bounds used (-286.37 + 1 / 2)
    have hm : meanLongitude used (-286.37 + 1 / 2) = 280.451 - 0.9856474 * 285.87 := by unfold meanLongitude used; norm_num
    have hg : Real.sqrt 3 / 2 ≤ Real.sin (rad (meanAnomaly (-286.37 + 1 / 2))) := by
      rw [← Real.sin_pi_div_three]
      have hp := Real.pi_pos
      apply Real.sin_le_sin_of_le_of_le_pi_div_two
      · linarith
      · unfold rad meanAnomaly; norm_num; nlinarith
      · unfold rad meanAnomaly; norm_num; nlinarith
    have h3 : (1.73 : ℝ) ≤ Real.sqrt 3 := Real.le_sqrt_of_sq_le (by norm_num)
    have hlow : 0 < eclipticLongitude used (-286.37 + 1 / 2) := by
      unfold eclipticLongitude
      rw [hm]
      have h4 := Real.neg_one_le_sin (2 * rad (meanAnomaly (-286.37 + 1 / 2)))
      norm_num at h3 ⊢
      norm_num at h4 hg
      linarith
    apply sin_rad_pos hlow
    rw [hm, abs_le] at hb
    have := hb.2
    norm_num at this ⊢
    linarith
  · intro lat' lon' h
    apply lat_neg h.lat_range
    rw [subsolar_sin_lat h]
    apply mul_neg_of_pos_of_neg (obliquity_pos (by norm_num) (by norm_num))
    have hb := ecliptic_bounds almanac (-286.37 - 1 / 2)
    have hm : meanLongitude almanac (-286.37 - 1 / 2) = 280.461 - 0.9856474 * 286.87 := by unfold meanLongitude almanac; norm_num
    rw [hm, abs_le] at hb
    apply sin_rad_neg
    · have := hb.2
      norm_num at this ⊢
      linarith
    · have := hb.1
      norm_num at this ⊢
      linarith

/-- C61, negation: with the mean longitude of the Almanac, which the comments of the code give, the sub-solar point is not the returned one. -/
theorem C61_mean_longitude : ∃ t lat lon, 0 ≤ t ∧ Supported t ∧ subsolAt libm t = some (lat, lon) ∧
    ∀ lat' lon', IsSubsolar almanac (t - 1 / 2) t lat' lon' → lat' ≠ lat := by
  have hcont : Continuous (eclipticLongitude almanac) := by
    unfold eclipticLongitude meanLongitude meanAnomaly rad; fun_prop
  have h0 : eclipticLongitude almanac 0 ≤ 360 := by
    have := (abs_le.mp (ecliptic_bounds almanac 0)).2
    unfold meanLongitude almanac at this
    unfold almanac
    norm_num at this ⊢; linarith
  have h1 : 360 ≤ eclipticLongitude almanac 366 := by
    have := (abs_le.mp (ecliptic_bounds almanac 366)).1
    unfold meanLongitude almanac at this
    unfold almanac
    norm_num at this ⊢; linarith
  obtain ⟨n, ⟨hn0, hn1⟩, hn⟩ := intermediate_value_Icc (by norm_num : (0 : ℝ) ≤ 366) hcont.continuousOn ⟨h0, h1⟩
  have hs : Supported (n + 1 / 2) := by
    have e1 : yearStart 1601 = -145731 := by decide
    have e2 : yearStart 2101 = 36890 := by decide
    unfold Supported
    rw [e1, e2]
    constructor <;> push_cast <;> linarith
  obtain ⟨lat, lon, r1, r2⟩ := C61_direction (n + 1 / 2) hs (Or.inl (by linarith))
  refine ⟨n + 1 / 2, lat, lon, by linarith, hs, r1, fun lat' lon' h he => ?_⟩
  have e : n + 1 / 2 - 1 / 2 = n := by ring
  rw [e] at r2 h
  have s1 := subsolar_sin_lat r2
  have s2 := subsolar_sin_lat h
  rw [he, s1, hn] at s2
  have hob := obliquity_pos (n := n) (by linarith) (by linarith)
  have hl : eclipticLongitude used n = -0.01 + 360 * ((1 : ℤ) : ℝ) := by
    have : eclipticLongitude used n = eclipticLongitude almanac n - 0.01 := by
      unfold eclipticLongitude meanLongitude used almanac; ring
    rw [this, hn]; push_cast; ring
  rw [hl, sin_rad_turns, show (360 : ℝ) = 0 + 360 * ((1 : ℤ) : ℝ) by push_cast; ring, sin_rad_turns] at s2
  have h3 := sin_rad_neg (x := -0.01) (by norm_num) (by norm_num)
  have h4 : rad 0 = 0 := by unfold rad; ring
  rw [h4, Real.sin_zero, mul_zero] at s2
  have := mul_neg_of_pos_of_neg hob h3
  linarith

/-- C61: outside of the years 1601 to 2100 the routine stops the process (the date is found and its year is refused). -/
theorem C61_stop (t : ℝ) (h : (yearStart 1583 : ℝ) ≤ t) (h' : ¬ Supported t) :
    subsolAt libm t = none ∧ ∃ c : Civil ℝ, tmjdInv t = some c ∧ nleap c.year = none := by
  have h1 : yearStart 1583 ≤ ⌊t⌋ := Int.le_floor.mpr h
  have e0 : yearStart 1583 = -152306 := by decide
  obtain ⟨c, e1, e2, -⟩ := tmjdInv_spec t h1
  have ey : c.year = yearOf ⌊t⌋ := congrArg Prod.fst e2
  have hn : nleap c.year = none := by
    rw [nleap_none, ey]
    have hf : firstDay ≤ ⌊t⌋ := by unfold firstDay; omega
    obtain ⟨b1, b2⟩ := C07_year_bracket ⌊t⌋ hf
    obtain ⟨q, n, hq, hn, hyq, -, -, -⟩ := decomp ⌊t⌋ hf
    have hy : -4799 ≤ yearOf ⌊t⌋ := by rw [hyq]; unfold yQ; split <;> omega
    by_contra hc
    apply h'
    have m1 := C07_year_start_mono 1600 (yearOf ⌊t⌋) (by omega) (by omega)
    have m2 := C07_year_start_mono (yearOf ⌊t⌋) 2101 hy (by omega)
    constructor
    · exact le_trans (by exact_mod_cast le_trans m1 b1) (Int.floor_le t)
    · exact Int.floor_lt.mp (by omega)
  refine ⟨?_, c, e1, hn⟩
  unfold subsolAt subsol
  rw [e1, Option.bind_some, hn]
  rfl

/-- C61: the batch is the list of the point-wise results. -/
theorem C61_pointwise (ts : List ℝ) : evalSubsol libm ts = ts.mapM (subsolAt libm) := by
  induction ts with
  | nil => rfl
  | cons t ts ih =>
    rw [evalSubsol, List.mapM_cons, ih]
    cases subsolAt libm t with
    | none => rfl
    | some r => cases ts.mapM (subsolAt libm) <;> rfl

example : ∃ lat lon, subsolAt libm 5923.25 = some (lat, lon) ∧ IsSubsolar used (5923.25 - 1 / 2) 5923.25 lat lon := by
  refine C61_direction _ ?_ (Or.inl (by norm_num))
  have e1 : yearStart 1601 = -145731 := by decide
  have e2 : yearStart 2101 = 36890 := by decide
  unfold Supported
  rw [e1, e2]
  constructor <;> norm_num

example : (yearStart 1583 : ℝ) ≤ 40000 ∧ ¬ Supported 40000 := by
  have e0 : yearStart 1583 = -152306 := by decide
  have e2 : yearStart 2101 = 36890 := by decide
  unfold Supported
  rw [e0, e2]
  constructor <;> norm_num

/-! ### Dipole pole -/

theorem epochIndex_le (date : ℝ) (es : List ℝ) : epochIndex date es ≤ es.length := by
  induction es with
  | nil => simp [epochIndex]
  | cons e es ih => unfold epochIndex; split <;> simp; omega

theorem epochIndex_spec (date : ℝ) (es : List ℝ) :
    (∀ k (h : k < es.length), k < epochIndex date es → es[k] ≤ date) ∧
    (∀ h : epochIndex date es < es.length, date < es[epochIndex date es]) := by
  induction es with
  | nil => simp
  | cons e es ih =>
    by_cases h : date < e
    · have he : epochIndex date (e :: es) = 0 := by rw [epochIndex, if_pos h]
      simp only [he]
      exact ⟨fun k _ hk => by omega, fun _ => by simpa using h⟩
    · have he : epochIndex date (e :: es) = epochIndex date es + 1 := by rw [epochIndex, if_neg h]
      simp only [he]
      refine ⟨fun k hk hk' => ?_, fun hk => ?_⟩
      · cases k with
        | zero => simpa using h
        | succ k => simpa using ih.1 k (by simpa using hk) (by omega)
      · simpa using ih.2 (by simpa using hk)

/-- Scale of the coefficients. -/
noncomputable def scale1 : ℝ := -1 / 100000 * 1 / 2

/-- The epochs of a table: every five years. -/
structure EpochsOk (es : List ℝ) : Prop where
  pos : 0 < es.length
  step : ∀ k (h : k + 1 < es.length), es[k + 1] = es[k] + 5

theorem epochs_mono {es : List ℝ} (h : EpochsOk es) : ∀ i j (_ : i ≤ j) (hj : j < es.length), es[i] ≤ es[j] := by
  intro i j hij
  induction j, hij using Nat.le_induction with
  | base => intro _; rfl
  | succ j hij ih => intro hj; have := ih (by omega); have := h.step j hj; linarith

/-- One coefficient as a function of the date. -/
theorem coefAt_extended {es : List ℝ} (h : EpochsOk es) (v : ℕ → ℝ) (r f : ℝ) :
    ∃ g : ℝ → ℝ, IsExtended es v r g ∧ ∀ date, es[0]'h.pos ≤ date →
      coefAt (decide (epochIndex date es = es.length)) (v (epochIndex date es - 1)) (v (epochIndex date es)) r
        (date - (es[epochIndex date es - 1]?).getD 0) f = g date * f := by
  have hpos := h.pos
  let val := fun date => coefAt (decide (epochIndex date es = es.length)) (v (epochIndex date es - 1)) (v (epochIndex date es)) r
        (date - (es[epochIndex date es - 1]?).getD 0) 1
  have hi : ∀ date k (hk : k < es.length), es[k] ≤ date → (∀ hk' : k + 1 < es.length, date < es[k + 1]) → epochIndex date es = k + 1 := by
    intro date k hk h1 h2
    have hs := epochIndex_spec date es
    have hle := epochIndex_le date es
    by_contra hne
    rcases lt_or_gt_of_ne hne with hlt | hgt
    · have hlt' : epochIndex date es < es.length := by omega
      have := hs.2 hlt'
      have := epochs_mono h (epochIndex date es) k (by omega) hk
      linarith
    · have hk' : k + 1 < es.length := by omega
      have := hs.1 (k + 1) hk' (by omega)
      have := h2 hk'
      linarith
  have hmid : ∀ date k (hk : k + 1 < es.length), es[k] ≤ date → date < es[k + 1] →
      val date = v k + (date - es[k]) / (es[k + 1] - es[k]) * (v (k + 1) - v k) := by
    intro date k hk h1 h2
    have e1 := hi date k (by omega) h1 (fun _ => h2)
    have hst := h.step k hk
    simp only [val, e1]
    unfold coefAt
    have hne : ¬ k + 1 = es.length := by omega
    rw [decide_eq_false hne, if_neg (by simp), Nat.add_sub_cancel, List.getElem?_eq_getElem (by omega), Option.getD_some, hst]
    ring
  have hlast : ∀ date, es[es.length - 1] ≤ date → val date = v (es.length - 1) + (date - es[es.length - 1]) * r := by
    intro date h1
    have e1 := hi date (es.length - 1) (by omega) h1 (fun hk' => by omega)
    simp only [val, e1]
    unfold coefAt
    have he : es.length - 1 + 1 = es.length := by omega
    rw [decide_eq_true he, if_pos rfl, Nat.add_sub_cancel, List.getElem?_eq_getElem (by omega), Option.getD_some]
    ring
  refine ⟨val, ⟨?_, ?_⟩, ?_⟩
  · intro k hk e h1 h2
    rcases lt_or_eq_of_le h2 with h3 | h3
    · exact hmid e k hk h1 h3
    · have hst := h.step k hk
      have hv : val e = v (k + 1) := by
        by_cases hk2 : k + 2 < es.length
        · rw [hmid e (k + 1) hk2 (le_of_eq h3.symm) (by rw [h.step (k + 1) hk2]; linarith), h3]
          ring
        · have hk3 : es.length - 1 = k + 1 := by omega
          have hle : es[es.length - 1] ≤ e := by simp only [hk3]; exact le_of_eq h3.symm
          rw [hlast e hle]
          simp only [hk3, h3]
          ring
      rw [hv, h3, hst]
      field_simp
      ring
  · intro _ e he
    exact hlast e he
  · intro date _
    show _ = val date * f
    simp only [val]
    unfold coefAt
    split <;> ring

theorem isExtended_unique {es : List ℝ} (h : EpochsOk es) {v : ℕ → ℝ} {r : ℝ} {f g : ℝ → ℝ} (hf : IsExtended es v r f)
    (hg : IsExtended es v r g) {e : ℝ} (he : es[0]'h.pos ≤ e) : f e = g e := by
  have hpos := h.pos
  by_cases hl : es[es.length - 1] ≤ e
  · rw [hf.after hpos e hl, hg.after hpos e hl]
  · rw [not_le] at hl
    have : ∀ k (hk : k < es.length), e < es[k] → ∃ m, ∃ hm : m + 1 < es.length, es[m] ≤ e ∧ e ≤ es[m + 1] := by
      intro k
      induction k with
      | zero => intro _ hk; linarith
      | succ k ih =>
        intro hk hlt
        by_cases hc : es[k] ≤ e
        · exact ⟨k, hk, hc, hlt.le⟩
        · exact ih (by omega) (not_le.mp hc)
    obtain ⟨m, hm, q1, q2⟩ := this _ (by omega) hl
    rw [hf.between m hm e q1 q2, hg.between m hm e q1 q2]

/-- C62: the coefficients of the dipole are linear between the epochs and after the last one; dates before the first epoch
stop the process. -/
theorem C62_coefficients (T : MainField ℝ) (h : EpochsOk T.epochs) :
    ∃ g10 g11 h11 : ℝ → ℝ, IsExtended T.epochs (fun k => (T.coef k).1) T.rate.1 g10 ∧
      IsExtended T.epochs (fun k => (T.coef k).2.1) T.rate.2.1 g11 ∧
      IsExtended T.epochs (fun k => (T.coef k).2.2) T.rate.2.2 h11 ∧
      ∀ date, cofrm T date = if date < T.epochs[0]'h.pos then none
        else some (g10 date * scale1, g11 date * scale1, h11 date * scale1) := by
  obtain ⟨g10, a1, b1⟩ := coefAt_extended h (fun k => (T.coef k).1) T.rate.1 scale1
  obtain ⟨g11, a2, b2⟩ := coefAt_extended h (fun k => (T.coef k).2.1) T.rate.2.1 scale1
  obtain ⟨h11, a3, b3⟩ := coefAt_extended h (fun k => (T.coef k).2.2) T.rate.2.2 scale1
  refine ⟨g10, g11, h11, a1, a2, a3, fun date => ?_⟩
  have hpos := h.pos
  obtain ⟨e, es, he⟩ : ∃ e es, T.epochs = e :: es := by
    cases hT : T.epochs with
    | nil => rw [hT] at hpos; simp at hpos
    | cons e es => exact ⟨e, es, rfl⟩
  have h0 : T.epochs[0]'h.pos = e := by simp only [he, List.getElem_cons_zero]
  rw [h0]
  by_cases hd : date < e
  · rw [if_pos hd]
    unfold cofrm
    simp only [he, if_pos hd]
  · rw [if_neg hd]
    have h0' : T.epochs[0]'h.pos ≤ date := by rw [h0]; linarith
    rw [← b1 date h0', ← b2 date h0', ← b3 date h0']
    unfold cofrm
    split
    · rename_i h'; rw [h'] at hpos; simp at hpos
    · rename_i e' es' h'
      have : e' = e := by rw [he] at h'; exact (List.cons.inj h').1.symm
      rw [if_neg (by rw [this]; exact hd)]
      rfl

/-- C62: the pole is the direction opposite to the dipole (g11, h11, g10): the northern one for the negative g10. -/
theorem C62_pole (g10 g11 h11 : ℝ) (hne : g10 ≠ 0 ∨ g11 ≠ 0 ∨ h11 ≠ 0) :
    let p := dypol libm Real.arccos (g10 * scale1) (g11 * scale1) (h11 * scale1)
    IsPole g10 g11 h11 p.1 p.2 := by
  intro p
  obtain ⟨m, hmdef⟩ : ∃ m, m = Real.sqrt (g10 ^ 2 + g11 ^ 2 + h11 ^ 2) := ⟨_, rfl⟩
  have hsc : scale1 < 0 := by unfold scale1; norm_num
  have hm : 0 < m := by
    rw [hmdef]
    apply Real.sqrt_pos.mpr
    rcases hne with h | h | h <;> have := pow_pos (abs_pos.mpr h) 2 <;> rw [sq_abs] at this <;>
      nlinarith [sq_nonneg g10, sq_nonneg g11, sq_nonneg h11]
  have hmsq : m * m = g10 ^ 2 + g11 ^ 2 + h11 ^ 2 := by rw [hmdef]; exact Real.mul_self_sqrt (by positivity)
  have hgpl : Real.sqrt (g10 * scale1 * (g10 * scale1) + g11 * scale1 * (g11 * scale1) + h11 * scale1 * (h11 * scale1)) = m * (-scale1) := by
    rw [Real.sqrt_eq_iff_mul_self_eq (by nlinarith [mul_self_nonneg (g10 * scale1), mul_self_nonneg (g11 * scale1), mul_self_nonneg (h11 * scale1)])
      (by nlinarith)]
    rw [show m * -scale1 * (m * -scale1) = (m * m) * (scale1 * scale1) by ring, hmsq]
    ring
  obtain ⟨c, hc⟩ : ∃ c, c = -g10 / m := ⟨_, rfl⟩
  have hp : p = (Real.arccos c * rad2dg libm, atan2 (h11 * scale1) (g11 * scale1) * rad2dg libm) := by
    show dypol libm Real.arccos (g10 * scale1) (g11 * scale1) (h11 * scale1) = _
    unfold dypol
    have : g10 * scale1 / (m * -scale1) = c := by rw [hc]; have := hsc.ne; have := hm.ne'; field_simp
    show (Real.arccos (g10 * scale1 / Real.sqrt (g10 * scale1 * (g10 * scale1) + g11 * scale1 * (g11 * scale1) + h11 * scale1 * (h11 * scale1))) *
      rad2dg libm, _) = _
    rw [hgpl, this]
    rfl
  have hc2 : c ^ 2 ≤ 1 := by
    rw [hc, div_pow, div_le_one (by positivity)]
    nlinarith [sq_nonneg g11, sq_nonneg h11]
  have hc3 := abs_le.mp ((sq_le_one_iff_abs_le_one c).mp hc2)
  have hrad : 0 ≤ rad2dg libm := by
    show 0 ≤ 180 * (1 / Real.pi)
    have := Real.pi_pos; positivity
  rw [hp]
  refine ⟨mul_nonneg (Real.arccos_nonneg c) hrad, ?_, ?_, ?_⟩
  · have := deg_abs_le (x := Real.arccos c) (b := 180) (by
      rw [abs_of_nonneg (Real.arccos_nonneg c)]; have := Real.arccos_le_pi c; linarith)
    exact (abs_le.mp this).2
  · apply deg_abs_le
    have := atan2_mem (h11 * scale1) (g11 * scale1)
    rw [abs_le]; constructor <;> linarith [this.1, this.2]
  · rw [← hmdef]
    unfold direction
    simp only [rad_sub, rad_dg, show rad 90 = Real.pi / 2 by unfold rad; ring, Real.cos_pi_div_two_sub, Real.sin_pi_div_two_sub]
    have hs : Real.sin (Real.arccos c) = Real.sqrt (g11 * scale1 * (g11 * scale1) + h11 * scale1 * (h11 * scale1)) / (m * -scale1) := by
      rw [Real.sin_arccos, eq_div_iff (by nlinarith)]
      rw [← Real.sqrt_sq (show 0 ≤ m * -scale1 by nlinarith), ← Real.sqrt_mul (by linarith)]
      congr 1
      have : c * m = -g10 := by rw [hc]; field_simp
      calc (1 - c ^ 2) * (m * -scale1) ^ 2 = (m * m - (c * m) ^ 2) * scale1 ^ 2 := by ring
        _ = _ := by rw [hmsq, this]; ring
    rw [hs, Real.cos_arccos hc3.1 hc3.2]
    have k1 := cos_atan2 (h11 * scale1) (g11 * scale1)
    have k2 := sin_atan2 (h11 * scale1) (g11 * scale1)
    have hne1 := hsc.ne
    have hne2 := hm.ne'
    refine Prod.ext ?_ (Prod.ext ?_ hc)
    · simp only
      rw [div_mul_eq_mul_div, k1]; field_simp
    · simp only
      rw [div_mul_eq_mul_div, k2]; field_simp

/-! ### Magnetic local time -/

/-- C60: the longitude of a point in the frame of the dipole pole. -/
theorem C60_dipole_longitude (lat lon colat elon : ℝ) (hl : |lat| ≤ 90) (h0 : 0 ≤ colat) (h1 : colat ≤ 180) :
    IsLongitude (poleFrame colat elon (direction lat lon)) (solgmlon libm lat lon colat elon) := by
  have hp := Real.pi_pos
  have hst : Real.sqrt (1 - Real.cos (rad colat) * Real.cos (rad colat)) = Real.sin (rad colat) := by
    rw [Real.sqrt_eq_iff_mul_self_eq (by nlinarith [Real.sin_sq_add_cos_sq (rad colat), sq_nonneg (Real.sin (rad colat))])]
    · nlinarith [Real.sin_sq_add_cos_sq (rad colat)]
    · apply Real.sin_nonneg_of_nonneg_of_le_pi
      · unfold rad; positivity
      · unfold rad; rw [div_le_iff₀ (by norm_num)]; nlinarith
  have hse : Real.sqrt (1 - Real.sin (rad lat) * Real.sin (rad lat)) = Real.cos (rad lat) := by
    rw [abs_le] at hl
    rw [Real.sqrt_eq_iff_mul_self_eq (by nlinarith [Real.sin_sq_add_cos_sq (rad lat), sq_nonneg (Real.cos (rad lat))])]
    · nlinarith [Real.sin_sq_add_cos_sq (rad lat)]
    · apply Real.cos_nonneg_of_neg_pi_div_two_le_of_le
      · unfold rad; nlinarith
      · unfold rad; nlinarith
  obtain ⟨x, hx⟩ : ∃ x, x = Real.cos (rad lat) * Real.cos (rad colat) * Real.cos (rad (lon - elon)) - Real.sin (rad lat) * Real.sin (rad colat) := ⟨_, rfl⟩
  obtain ⟨y, hy⟩ : ∃ y, y = Real.sin (rad (lon - elon)) * Real.cos (rad lat) := ⟨_, rfl⟩
  have hsol : solgmlon libm lat lon colat elon = atan2 y x * rad2dg libm := by
    unfold solgmlon
    simp only [dg_rad]
    show atan2 (Real.sin (rad (lon - elon)) * Real.sqrt (1 - Real.sin (rad lat) * Real.sin (rad lat)))
      (Real.sqrt (1 - Real.sin (rad lat) * Real.sin (rad lat)) * Real.cos (rad colat) * Real.cos (rad (lon - elon)) -
        Real.sin (rad lat) * Real.sqrt (1 - Real.cos (rad colat) * Real.cos (rad colat))) * _ = _
    rw [hst, hse, ← hx, ← hy]
  have hv1 : (poleFrame colat elon (direction lat lon)).1 = x := by
    rw [hx, rad_sub, Real.cos_sub]
    unfold poleFrame rotated direction
    simp only; ring
  have hv2 : (poleFrame colat elon (direction lat lon)).2.1 = y := by
    rw [hy, rad_sub, Real.sin_sub]
    unfold poleFrame rotated direction
    simp only; ring
  refine ⟨?_, ?_, ?_⟩
  · rw [hsol]
    apply deg_abs_le
    have := atan2_mem y x
    rw [abs_le]; constructor <;> linarith [this.1, this.2]
  · rw [hsol, rad_dg]; unfold horizontal; rw [hv1, hv2, cos_atan2]
  · rw [hsol, rad_dg]; unfold horizontal; rw [hv1, hv2, sin_atan2]

/-- C60: for longitudes from -180 to 180 the result is the local time with respect to the dipole longitude of the Sun. -/
theorem C60_local_time (alon lat lon colat elon : ℝ) (ha : |alon| ≤ 180) (hl : |lat| ≤ 90) (h0 : 0 ≤ colat) (h1 : colat ≤ 180) :
    ∃ sun, IsLongitude (poleFrame colat elon (direction lat lon)) sun ∧
      IsLocalTime alon sun (magloctm libm alon lat lon colat elon) := by
  have hs := C60_dipole_longitude lat lon colat elon hl h0 h1
  refine ⟨_, hs, ?_⟩
  have hb := abs_le.mp hs.1
  have ha' := abs_le.mp ha
  unfold magloctm
  obtain ⟨m, hm⟩ : ∃ m, m = (alon - solgmlon libm lat lon colat elon) / 15 + 12 := ⟨_, rfl⟩
  have m1 : -12 ≤ m := by rw [hm]; linarith [hb.2, ha'.1]
  have m2 : m ≤ 36 := by rw [hm]; linarith [hb.1, ha'.2]
  simp only [← hm]
  by_cases c1 : m ≥ 24
  · rw [if_pos c1, if_neg (by linarith)]
    exact ⟨by linarith, by linarith, -1, by push_cast; rw [hm]; ring⟩
  · rw [if_neg c1]
    by_cases c2 : m < 0
    · rw [if_pos c2]
      exact ⟨by linarith, by linarith, 1, by push_cast; rw [hm]; ring⟩
    · rw [if_neg c2]
      exact ⟨by linarith, by linarith, 0, by push_cast; rw [hm]; ring⟩

/-- C60, negation: outside of this range the result can be out of the day: whatever the positions of the Sun and of the pole,
there is a longitude up to 720 for which it is 24. -/
theorem C60_out_of_day (lat lon colat elon : ℝ) (hl : |lat| ≤ 90) (h0 : 0 ≤ colat) (h1 : colat ≤ 180) :
    ∃ alon, |alon| ≤ 720 ∧ magloctm libm alon lat lon colat elon = 24 := by
  have hs := (C60_dipole_longitude lat lon colat elon hl h0 h1).1
  refine ⟨solgmlon libm lat lon colat elon + 540, ?_, ?_⟩
  · rw [abs_le] at hs ⊢; constructor <;> linarith [hs.1, hs.2]
  · unfold magloctm
    simp only [add_sub_cancel_left]
    norm_num

/-- Environment of the batch: exact functions, any conversion to single precision, any main field. -/
noncomputable def mltEnv (sngl : ℝ → ℝ) (T : MainField ℝ) : Verif.Mlt.Env ℝ := ⟨libm, Real.arccos, sngl, T⟩

/-- The epoch of a time. -/
noncomputable def mltEpoch (sngl : ℝ → ℝ) (t : ℝ) : ℝ := sngl (2000 + t / 365.25)

/-- The pole for an epoch. -/
noncomputable def poleAt (T : MainField ℝ) (e : ℝ) : Option (ℝ × ℝ) := (cofrm T e).map fun g => dypol libm Real.arccos g.1 g.2.1 g.2.2

/-- Local time of a longitude at a time with the pole of an epoch. -/
noncomputable def mltAt (T : MainField ℝ) (e : ℝ) (p : ℝ × ℝ) : Option ℝ :=
  (poleAt T e).bind fun q => (subsolAt libm p.2).map fun r => magloctm libm p.1 r.1 r.2 q.1 q.2

/-- The epochs of the poles. -/
noncomputable def mltHeld (sngl : ℝ → ℝ) : ℝ → List (ℝ × ℝ) → List ℝ
  | _, [] => []
  | o, p :: ps =>
    let u := if oneDay < |mltEpoch sngl p.2 - o| then mltEpoch sngl p.2 else o
    u :: mltHeld sngl u ps

theorem mltHeld_length (sngl : ℝ → ℝ) (ps : List (ℝ × ℝ)) : ∀ o, (mltHeld sngl o ps).length = ps.length := by
  induction ps with
  | nil => intro o; rfl
  | cons p ps ih => intro o; simp only [mltHeld, List.length_cons, ih]

theorem mltHeld_spec (sngl : ℝ → ℝ) (ps : List (ℝ × ℝ)) : ∀ o i (h : i < ps.length) (h' : i < (mltHeld sngl o ps).length),
    |mltEpoch sngl ps[i].2 - (mltHeld sngl o ps)[i]| ≤ oneDay ∧
      (((mltHeld sngl o ps)[i] = o ∧ ¬ oneDay < |mltEpoch sngl (ps[0]'(by omega)).2 - o|) ∨
        ∃ j, ∃ _ : j ≤ i, (mltHeld sngl o ps)[i] = mltEpoch sngl (ps[j]'(by omega)).2) := by
  induction ps with
  | nil => intro o i h; simp at h
  | cons p ps ih =>
    intro o i h h'
    have hd : 0 ≤ oneDay := by unfold oneDay; norm_num
    cases i with
    | zero =>
      simp only [mltHeld, List.getElem_cons_zero]
      by_cases hc : oneDay < |mltEpoch sngl p.2 - o|
      · simp only [hc, if_true, sub_self, abs_zero]
        exact ⟨hd, Or.inr ⟨0, le_refl _, rfl⟩⟩
      · simp only [hc, if_false]
        exact ⟨not_lt.mp hc, Or.inl ⟨trivial, not_false⟩⟩
    | succ i =>
      simp only [mltHeld, List.getElem_cons_succ]
      have hi : i < ps.length := by simpa using h
      obtain ⟨h1, h2⟩ := ih (if oneDay < |mltEpoch sngl p.2 - o| then mltEpoch sngl p.2 else o) i hi (by rw [mltHeld_length]; exact hi)
      refine ⟨h1, ?_⟩
      rcases h2 with ⟨h2, -⟩ | ⟨j, hj, h2⟩
      · rw [h2]
        by_cases hc : oneDay < |mltEpoch sngl p.2 - o|
        · rw [if_pos hc]; exact Or.inr ⟨0, by omega, rfl⟩
        · rw [if_neg hc]; exact Or.inl ⟨rfl, hc⟩
      · exact Or.inr ⟨j + 1, by omega, by rw [h2]; rfl⟩

theorem mltLoop_spec (sngl : ℝ → ℝ) (T : MainField ℝ) (ps : List (ℝ × ℝ)) : ∀ (o : ℝ) (pole : Option (ℝ × ℝ)),
    ((∃ q, pole = some q ∧ poleAt T o = some q) ∨ ∀ p, ps.head? = some p → oneDay < |mltEpoch sngl p.2 - o|) →
    mltLoop (mltEnv sngl T) ps (pole, .fin o) = (List.zip (mltHeld sngl o ps) ps).mapM fun x => mltAt T x.1 x.2 := by
  induction ps with
  | nil => intro o pole _; rfl
  | cons p ps ih =>
    intro o pole hp
    unfold mltLoop mltStep refresh
    have he : epochOf (mltEnv sngl T) p.2 = mltEpoch sngl p.2 := by
      show sngl (p.2 / (36525 / 100) + 2000) = sngl (2000 + p.2 / 365.25)
      congr 1; rw [add_comm]; norm_num
    simp only [he, changed_fin, decide_eq_true_eq, mltHeld, List.zip_cons_cons, List.mapM_cons]
    have hL : (mltEnv sngl T).L = libm := rfl
    have hA : (mltEnv sngl T).acos = Real.arccos := rfl
    have hF : (mltEnv sngl T).field = T := rfl
    rw [hL, hA, hF]
    by_cases hc : oneDay < |mltEpoch sngl p.2 - o|
    · simp only [hc, if_true]
      cases hg : cofrm T (mltEpoch sngl p.2) with
      | none =>
        have hn : mltAt T (mltEpoch sngl p.2) p = none := by unfold mltAt poleAt; rw [hg]; rfl
        rw [hn]
        rfl
      | some g =>
        have hq : poleAt T (mltEpoch sngl p.2) = some (dypol libm Real.arccos g.1 g.2.1 g.2.2) := by unfold poleAt; rw [hg]; rfl
        simp only [Option.map_some, Option.bind_some]
        cases hs : subsolAt libm p.2 with
        | none =>
          have hn : mltAt T (mltEpoch sngl p.2) p = none := by unfold mltAt; rw [hq, hs]; rfl
          rw [hn]
          rfl
        | some r =>
          have hn : mltAt T (mltEpoch sngl p.2) p = some (magloctm libm p.1 r.1 r.2 (dypol libm Real.arccos g.1 g.2.1 g.2.2).1
              (dypol libm Real.arccos g.1 g.2.1 g.2.2).2) := by unfold mltAt; rw [hq, hs]; rfl
          rw [hn]
          simp only [Option.map_some, Option.bind_some]
          rw [ih (mltEpoch sngl p.2) _ (Or.inl ⟨_, rfl, hq⟩)]
          cases (List.zip (mltHeld sngl (mltEpoch sngl p.2) ps) ps).mapM fun x => mltAt T x.1 x.2 <;> rfl
    · obtain ⟨q, rfl, hq⟩ : ∃ q, pole = some q ∧ poleAt T o = some q := by
        rcases hp with h | h
        · exact h
        · exact absurd (h p rfl) hc
      simp only [hc, if_false, Option.bind_some]
      cases hs : subsolAt libm p.2 with
      | none =>
        have hn : mltAt T o p = none := by unfold mltAt; rw [hq, hs]; rfl
        rw [hn]
        rfl
      | some r =>
        have hn : mltAt T o p = some (magloctm libm p.1 r.1 r.2 q.1 q.2) := by unfold mltAt; rw [hq, hs]; rfl
        rw [hn]
        simp only [Option.map_some, Option.bind_some]
        rw [ih o _ (Or.inl ⟨_, rfl, hq⟩)]
        cases (List.zip (mltHeld sngl o ps) ps).mapM fun x => mltAt T x.1 x.2 <;> rfl

theorem mapM_some_of {α β : Type} (f : α → Option β) : ∀ (l : List α), (∀ x ∈ l, ∃ y, f x = some y) →
    ∃ ys, l.mapM f = some ys ∧ ys.length = l.length ∧ ∀ i (h : i < l.length) (h' : i < ys.length), f l[i] = some ys[i]
  | [], _ => ⟨[], rfl, rfl, fun i h => by simp at h⟩
  | x :: l, h => by
    obtain ⟨y, hy⟩ := h x (by simp)
    obtain ⟨ys, h1, h2, h3⟩ := mapM_some_of f l (fun z hz => h z (by simp [hz]))
    refine ⟨y :: ys, by rw [List.mapM_cons, hy, h1]; rfl, by simp [h2], fun i hi hi' => ?_⟩
    cases i with
    | zero => simpa using hy
    | succ i => simpa using h3 i (by simpa using hi) (by simpa using hi')

theorem subsolAt_days (t : ℝ) (h : Supported t) : ∃ lat lon, subsolAt libm t = some (lat, lon) ∧ IsSubsolar used (sunDays t) t lat lon := by
  unfold sunDays
  by_cases hc : 0 ≤ t ∨ (⌊t⌋ : ℝ) = t
  · rw [if_pos hc]; exact C61_direction t h hc
  · rw [if_neg hc]
    rw [not_or] at hc
    exact C61_before_2000_partial t h (not_le.mp hc.1) hc.2

/-- C60: every element of a batch is the local time of its longitude at its time; the pole is the one of the epoch of a point of the batch up
to this one, not more than a day away. -/
theorem C60_batch (sngl : ℝ → ℝ) (T : MainField ℝ) (hT : EpochsOk T.epochs) (g10 g11 h11 : ℝ → ℝ)
    (i1 : IsExtended T.epochs (fun k => (T.coef k).1) T.rate.1 g10) (i2 : IsExtended T.epochs (fun k => (T.coef k).2.1) T.rate.2.1 g11)
    (i3 : IsExtended T.epochs (fun k => (T.coef k).2.2) T.rate.2.2 h11) (h0 : 0 ≤ T.epochs[0]'hT.pos)
    (ps : List (ℝ × ℝ)) (hlon : ∀ p ∈ ps, |p.1| ≤ 180) (hsup : ∀ p ∈ ps, Supported p.2)
    (hep : ∀ p ∈ ps, T.epochs[0]'hT.pos ≤ mltEpoch sngl p.2) (hne : ∀ p ∈ ps, g10 (mltEpoch sngl p.2) ≠ 0) :
    ∃ qs, evalMlt (mltEnv sngl T) ps = some qs ∧ qs.length = ps.length ∧
      ∀ i (h : i < ps.length) (h' : i < qs.length), ∃ j, ∃ _ : j ≤ i, ∃ e, e = mltEpoch sngl (ps[j]'(by omega)).2 ∧
        |mltEpoch sngl ps[i].2 - e| ≤ oneDay ∧ ∃ colat elon lat lon sun, IsPole (g10 e) (g11 e) (h11 e) colat elon ∧
          IsSubsolar used (sunDays ps[i].2) ps[i].2 lat lon ∧ IsLongitude (poleFrame colat elon (direction lat lon)) sun ∧
          IsLocalTime ps[i].1 sun qs[i] := by
  obtain ⟨a10, a11, b11, e1, e2, e3, hcof⟩ := C62_coefficients T hT
  have hfar : ∀ p ∈ ps, oneDay < |mltEpoch sngl p.2 - (-99999 / 10)| := by
    intro p hp
    have := hep p hp
    rw [abs_of_pos (by linarith)]
    unfold oneDay
    norm_num; linarith
  have hloop := mltLoop_spec sngl T ps (-99999 / 10) none (Or.inr fun p hp => hfar p (List.mem_of_mem_head? hp))
  have key : ∀ e, T.epochs[0]'hT.pos ≤ e → g10 e ≠ 0 → ∃ q, poleAt T e = some q ∧ IsPole (g10 e) (g11 e) (h11 e) q.1 q.2 := by
    intro e he hn
    have c := hcof e
    rw [if_neg (not_lt.mpr he), isExtended_unique hT e1 i1 he, isExtended_unique hT e2 i2 he, isExtended_unique hT e3 i3 he] at c
    exact ⟨_, by unfold poleAt; rw [c]; rfl, C62_pole _ _ _ (Or.inl hn)⟩
  have hheld : ∀ i (h : i < ps.length), ∃ j, ∃ _ : j ≤ i, (mltHeld sngl (-99999 / 10) ps)[i]'(by rw [mltHeld_length]; exact h) =
      mltEpoch sngl (ps[j]'(by omega)).2 ∧ |mltEpoch sngl ps[i].2 - mltEpoch sngl (ps[j]'(by omega)).2| ≤ oneDay := by
    intro i h
    obtain ⟨s1, s2⟩ := mltHeld_spec sngl ps (-99999 / 10) i h (by rw [mltHeld_length]; exact h)
    rcases s2 with ⟨-, s2⟩ | ⟨j, hj, s2⟩
    · exact absurd (hfar _ (List.getElem_mem _)) s2
    · rw [s2] at s1; exact ⟨j, hj, s2, s1⟩
  have hall : ∀ x ∈ List.zip (mltHeld sngl (-99999 / 10) ps) ps, ∃ y, mltAt T x.1 x.2 = some y := by
    intro x hx
    obtain ⟨i, hi, rfl⟩ := List.mem_iff_getElem.mp hx
    have hi' : i < ps.length := by simp at hi; omega
    rw [List.getElem_zip]
    obtain ⟨j, hj, r1, -⟩ := hheld i hi'
    obtain ⟨q, k1, -⟩ := key _ (hep _ (List.getElem_mem (show j < ps.length by omega))) (hne _ (List.getElem_mem (show j < ps.length by omega)))
    obtain ⟨lat, lon, k2, -⟩ := subsolAt_days _ (hsup _ (List.getElem_mem hi'))
    simp only [r1]
    unfold mltAt
    rw [k1, k2]
    exact ⟨_, rfl⟩
  obtain ⟨qs, m1, m2, m3⟩ := mapM_some_of _ _ hall
  have hlen : qs.length = ps.length := by rw [m2, List.length_zip, mltHeld_length, min_self]
  refine ⟨qs, by rw [← m1]; exact hloop, hlen, fun i h h' => ?_⟩
  obtain ⟨j, hj, r1, r2⟩ := hheld i h
  obtain ⟨q, k1, k3⟩ := key _ (hep _ (List.getElem_mem (show j < ps.length by omega))) (hne _ (List.getElem_mem (show j < ps.length by omega)))
  obtain ⟨lat, lon, k2, k4⟩ := subsolAt_days _ (hsup _ (List.getElem_mem h))
  have hv := m3 i (by rw [← m2]; exact h') h'
  rw [List.getElem_zip] at hv
  simp only [r1] at hv
  unfold mltAt at hv
  rw [k1, k2] at hv
  simp only [Option.bind_some, Option.map_some, Option.some.injEq] at hv
  obtain ⟨sun, u1, u2⟩ := C60_local_time ps[i].1 lat lon q.1 q.2 (hlon _ (List.getElem_mem h)) k4.lat_range k3.colat_nonneg k3.colat_le
  exact ⟨j, hj, _, rfl, r2, q.1, q.2, lat, lon, sun, k3, k4, u1, hv ▸ u2⟩

theorem mltHeld_equal (sngl : ℝ → ℝ) (ps : List (ℝ × ℝ)) (i : ℕ) (h : i < ps.length) (o : ℝ)
    (h0 : ∀ p ∈ ps, oneDay < |mltEpoch sngl p.2 - o|)
    (hd : ∀ p ∈ ps, ∀ p' ∈ ps, mltEpoch sngl p.2 = mltEpoch sngl p'.2 ∨ oneDay < |mltEpoch sngl p.2 - mltEpoch sngl p'.2|) :
    (mltHeld sngl o ps)[i]'(by rw [mltHeld_length]; exact h) = mltEpoch sngl ps[i].2 := by
  obtain ⟨s1, s2⟩ := mltHeld_spec sngl ps o i h (by rw [mltHeld_length]; exact h)
  rcases s2 with ⟨-, s2⟩ | ⟨j, hj, s2⟩
  · exact absurd (h0 _ (List.getElem_mem _)) s2
  · rw [s2] at s1 ⊢
    rcases hd _ (List.getElem_mem h) _ (List.getElem_mem (show j < ps.length by omega)) with k | k
    · exact k.symm
    · exact absurd s1 (not_le.mpr k)

/-- C60: if the epochs of any two points are equal or differ by more than a day, the batch is the list of the point-wise results.
(Without this hypothesis the pole of a previous point is used.) -/
theorem C60_pointwise_partial (sngl : ℝ → ℝ) (T : MainField ℝ) (ps : List (ℝ × ℝ)) (h0 : ∀ p ∈ ps, 0 ≤ mltEpoch sngl p.2)
    (hd : ∀ p ∈ ps, ∀ p' ∈ ps, mltEpoch sngl p.2 = mltEpoch sngl p'.2 ∨ oneDay < |mltEpoch sngl p.2 - mltEpoch sngl p'.2|) :
    evalMlt (mltEnv sngl T) ps = ps.mapM fun p => (evalMlt (mltEnv sngl T) [p]).bind List.head? := by
  have hfar : ∀ p ∈ ps, oneDay < |mltEpoch sngl p.2 - (-99999 / 10)| := by
    intro p hp
    have := h0 p hp
    rw [abs_of_pos (by linarith)]
    unfold oneDay
    norm_num; linarith
  have hz : List.zip (mltHeld sngl (-99999 / 10) ps) ps = ps.map fun p => (mltEpoch sngl p.2, p) := by
    apply List.ext_getElem
    · simp [mltHeld_length]
    · intro i h1 h2
      rw [List.getElem_zip, List.getElem_map, mltHeld_equal sngl ps i (by simpa using h2) _ hfar hd]
  have h1 : evalMlt (mltEnv sngl T) ps = ps.mapM fun p => mltAt T (mltEpoch sngl p.2) p := by
    have := mltLoop_spec sngl T ps (-99999 / 10) none (Or.inr fun p hp => hfar p (List.mem_of_mem_head? hp))
    rw [hz] at this
    show mltLoop _ _ (none, .fin (-99999 / 10)) = _
    rw [this, List.mapM_map]
    rfl
  rw [h1]
  have h2 : ∀ p ∈ ps, mltAt T (mltEpoch sngl p.2) p = (evalMlt (mltEnv sngl T) [p]).bind List.head? := by
    intro p hp
    have := mltLoop_spec sngl T [p] (-99999 / 10) none (Or.inr fun q hq => by
      simp only [List.head?_cons, Option.some.injEq] at hq; subst hq; exact hfar p hp)
    show _ = (mltLoop _ _ (none, .fin (-99999 / 10))).bind _
    rw [this]
    simp only [mltHeld, if_pos (hfar p hp), List.zip_cons_cons, List.mapM_cons]
    cases mltAt T (mltEpoch sngl p.2) p <;> rfl
  clear h1 hz hfar hd h0
  induction ps with
  | nil => rfl
  | cons p ps ih =>
    rw [List.mapM_cons, List.mapM_cons, h2 p (by simp), ih fun q hq => h2 q (by simp [hq])]

/-- C60: a time whose epoch is before the first one of the field, or whose year is not one of 1601 to 2100, stops the process. -/
theorem C60_stop (sngl : ℝ → ℝ) (T : MainField ℝ) (hT : EpochsOk T.epochs) (p : ℝ × ℝ) (h0 : 0 ≤ mltEpoch sngl p.2)
    (h : mltEpoch sngl p.2 < T.epochs[0]'hT.pos ∨ ((yearStart 1583 : ℝ) ≤ p.2 ∧ ¬ Supported p.2)) :
    evalMlt (mltEnv sngl T) [p] = none := by
  have hfar : oneDay < |mltEpoch sngl p.2 - (-99999 / 10)| := by
    rw [abs_of_pos (by linarith)]
    unfold oneDay
    norm_num; linarith
  have := mltLoop_spec sngl T [p] (-99999 / 10) none (Or.inr fun q hq => by
      simp only [List.head?_cons, Option.some.injEq] at hq; subst hq; exact hfar)
  show mltLoop _ _ (none, .fin (-99999 / 10)) = _
  rw [this]
  simp only [mltHeld, if_pos hfar, List.zip_cons_cons, List.mapM_cons]
  have hn : mltAt T (mltEpoch sngl p.2) p = none := by
    unfold mltAt
    rcases h with h | h
    · obtain ⟨g10, g11, h11, -, -, -, hc⟩ := C62_coefficients T hT
      unfold poleAt
      rw [hc, if_pos h]
      rfl
    · rw [(C61_stop p.2 h.1 h.2).1]
      cases poleAt T (mltEpoch sngl p.2) <;> rfl
  rw [hn]
  rfl

/-- A field with a constant dipole. -/
def fixedDipole : MainField ℝ := ⟨[1900, 1905], fun _ => (-30000, -2000, 5000), (0, 0, 0)⟩

theorem fixedDipole_ok : EpochsOk fixedDipole.epochs := by
  refine ⟨by simp [fixedDipole], fun k hk => ?_⟩
  have hk0 : k = 0 := by simp [fixedDipole] at hk; omega
  subst hk0
  simp [fixedDipole]; norm_num

theorem fixedDipole_extended (v : ℝ) : IsExtended fixedDipole.epochs (fun _ => v) 0 (fun _ => v) :=
  ⟨fun _ _ _ _ _ => by ring, fun _ _ _ => by ring⟩

example : ∃ qs : List ℝ, evalMlt (mltEnv id fixedDipole) [(0, 0), (90, 1 / 2), (-170, 3000)] = some qs ∧ qs.length = 3 := by
  have e1 : yearStart 1601 = -145731 := by decide
  have e2 : yearStart 2101 = 36890 := by decide
  obtain ⟨qs, h, hl, -⟩ := C60_batch id fixedDipole fixedDipole_ok _ _ _ (fixedDipole_extended (-30000)) (fixedDipole_extended (-2000))
    (fixedDipole_extended 5000) (by simp [fixedDipole]) [(0, 0), (90, 1 / 2), (-170, 3000)]
    (by intro p hp; fin_cases hp <;> norm_num [abs_le])
    (by intro p hp; unfold Supported; rw [e1, e2]; fin_cases hp <;> norm_num)
    (by intro p hp; unfold mltEpoch; fin_cases hp <;> simp [fixedDipole] <;> norm_num)
    (by intro p hp; norm_num)
  exact ⟨qs, h, hl⟩

example : ∃ alon, |alon| ≤ (720 : ℝ) ∧ magloctm libm alon 23 100 10 (-72) = 24 :=
  C60_out_of_day 23 100 10 (-72) (by norm_num [abs_le]) (by norm_num) (by norm_num)

example : ∃ colat lon, IsPole (-30000) (-2000) 5000 colat lon := ⟨_, _, C62_pole (-30000) (-2000) 5000 (Or.inl (by norm_num))⟩

end Verif.Props
