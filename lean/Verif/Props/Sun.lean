/-
C47, C54, C55: position of the Sun.
-/
import Verif.Model.Sun
import Verif.Lemmas.Geo
import Verif.Lemmas.Time
import Verif.Props.Time
import Mathlib.Analysis.SpecialFunctions.Trigonometric.Bounds
import Mathlib.Analysis.Real.Pi.Bounds

set_option linter.unusedSectionVars false

namespace Verif.Props

open Verif.Sun Verif.Geo Verif.Spec

/-! ### Wrapping -/

theorem fmodFloor_mem (a : ℝ) {b : ℝ} (hb : 0 < b) : 0 ≤ fmodFloor a b ∧ fmodFloor a b < b := by
  have f1 := Int.floor_le (a / b)
  have f2 := Int.lt_floor_add_one (a / b)
  rw [le_div_iff₀ hb] at f1
  rw [div_lt_iff₀ hb] at f2
  unfold fmodFloor
  constructor <;> nlinarith

theorem wrap_mem (a : ℝ) : -Real.pi ≤ fmodFloor a (2 * Real.pi) - Real.pi ∧
    fmodFloor a (2 * Real.pi) - Real.pi < Real.pi := by
  have := fmodFloor_mem a (b := 2 * Real.pi) (by positivity)
  constructor <;> linarith [this.1, this.2]

theorem wrap_angle (a : ℝ) : ∃ k : Int, fmodFloor a (2 * Real.pi) = a + k * (2 * Real.pi) :=
  ⟨-⌊a / (2 * Real.pi)⌋, by unfold fmodFloor; push_cast; ring⟩

/-- Right ascension brought to [0, 2π). -/
theorem rasc_mem (x : ℝ) (h1 : -Real.pi < x) (h2 : x ≤ Real.pi) :
    0 ≤ x + (if x < 0 then 2 * Real.pi else 0) ∧ x + (if x < 0 then 2 * Real.pi else 0) < 2 * Real.pi := by
  have := Real.pi_pos
  split <;> constructor <;> linarith

section
variable (tan : ℝ → ℝ)

theorem deg_scale (x : ℝ) : rad2deg libm * x = x * 180 / Real.pi := by
  show 180 / Real.pi * x = _
  ring

theorem deg_le {x y : ℝ} (h : x ≤ y) : rad2deg libm * x ≤ rad2deg libm * y := by
  rw [deg_scale, deg_scale]
  have := Real.pi_pos
  gcongr

theorem deg_lt {x y : ℝ} (h : x < y) : rad2deg libm * x < rad2deg libm * y := by
  rw [deg_scale, deg_scale]
  have := Real.pi_pos
  gcongr

theorem deg_pi : rad2deg libm * Real.pi = 180 := by
  rw [deg_scale]
  have := Real.pi_ne_zero
  field_simp

/-- The equatorial coordinates [rad]. -/
noncomputable def equat (mjd2k dtt lon : ℝ) : ℝ × ℝ × ℝ := sunpos5equat libm mjd2k dtt lon

theorem sunpos_fields (mjd2k lat lon rad dtt : ℝ) :
    let e := sunpos5equat libm mjd2k dtt (lon * (Real.pi / 180))
    let h := sunpos5eq2hor libm tan e.1 e.2.2 (lat * (Real.pi / 180)) rad 0 0
    sunpos libm tan mjd2k lat lon rad dtt = ⟨rad2deg libm * e.1, rad2deg libm * e.2.1, rad2deg libm * e.2.2,
      rad2deg libm * h.1, rad2deg libm * h.2⟩ := rfl

/-- Geometric zenith angle and the parallax. -/
theorem zenith_eq (decl hang lat rad : ℝ) :
    ∃ z0, 0 ≤ z0 ∧ z0 ≤ Real.pi ∧
      Real.cos z0 = Real.sin lat * Real.sin decl + |Real.cos lat| * |Real.cos decl| * Real.cos hang ∧
      (sunpos5eq2hor libm tan decl hang lat rad 0 0).2 = z0 + Real.sin z0 * (rad / 149597871) := by
  set se0 := Real.sin lat * Real.sin decl + |Real.cos lat| * |Real.cos decl| * Real.cos hang with hse
  have hc : ∀ x : ℝ, Real.sqrt (1 - Real.sin x * Real.sin x) = |Real.cos x| := by
    intro x
    rw [← Real.sqrt_sq_eq_abs]
    congr 1
    nlinarith [Real.sin_sq_add_cos_sq x]
  have hb : -1 ≤ se0 ∧ se0 ≤ 1 := by
    have h1 := Real.neg_one_le_cos hang
    have h2 := Real.cos_le_one hang
    have a1 : 0 ≤ |Real.cos lat| * |Real.cos decl| := by positivity
    have q1 := Real.sin_sq_add_cos_sq lat
    have q2 := Real.sin_sq_add_cos_sq decl
    have s1 := sq_abs (Real.cos lat)
    have s2 := sq_abs (Real.cos decl)
    constructor
    · nlinarith [sq_nonneg (Real.sin lat + Real.sin decl), sq_nonneg (|Real.cos lat| - |Real.cos decl|)]
    · nlinarith [sq_nonneg (Real.sin lat - Real.sin decl), sq_nonneg (|Real.cos lat| - |Real.cos decl|)]
  have hz : (sunpos5eq2hor libm tan decl hang lat rad 0 0).2 =
      Real.pi / 2 - (Real.arcsin se0 - Real.sqrt (1 - se0 * se0) * rad * (1 / 149597871)) := by
    show Real.pi / 2 - _ - _ = _
    simp only [gt_iff_lt, lt_self_iff_false, false_and, if_false, sub_zero]
    show Real.pi / 2 - (Real.arcsin (Real.sin lat * Real.sin decl + Real.sqrt (1 - Real.sin lat * Real.sin lat) *
      Real.sqrt (1 - Real.sin decl * Real.sin decl) * Real.cos hang) - _) = _
    rw [hc lat, hc decl]
    show Real.pi / 2 - (Real.arcsin se0 - Real.sqrt (1 - (Real.sin lat * Real.sin decl + Real.sqrt (1 - Real.sin lat * Real.sin lat) *
      Real.sqrt (1 - Real.sin decl * Real.sin decl) * Real.cos hang) * (Real.sin lat * Real.sin decl + Real.sqrt (1 - Real.sin lat * Real.sin lat) *
      Real.sqrt (1 - Real.sin decl * Real.sin decl) * Real.cos hang)) * rad * (1 / 149597871)) = _
    rw [hc lat, hc decl]
  refine ⟨Real.arccos se0, Real.arccos_nonneg _, Real.arccos_le_pi _, Real.cos_arccos hb.1 hb.2, ?_⟩
  rw [hz, Real.sin_arccos, Real.arccos, sq]
  ring

/-- **C47**.  Ranges of the solar coordinates, at every time and location. -/
theorem C47_ranges (mjd2k lat lon rad dtt : ℝ) :
    let s := sunpos libm tan mjd2k lat lon rad dtt
    (-90 ≤ s.decl ∧ s.decl ≤ 90) ∧ (0 ≤ s.rasc ∧ s.rasc < 360) ∧ (-180 ≤ s.hang ∧ s.hang < 180) ∧
      (-180 ≤ s.azimuth ∧ s.azimuth < 180) := by
  have hp := deg_pi
  have hp2 : rad2deg libm * (Real.pi / 2) = 90 := by rw [← mul_div_assoc, hp]; norm_num
  have hn2 : rad2deg libm * (-(Real.pi / 2)) = -90 := by rw [mul_neg, hp2]
  have hpn : rad2deg libm * (-Real.pi) = -180 := by rw [mul_neg, hp]
  have h2p : rad2deg libm * (2 * Real.pi) = 360 := by rw [mul_left_comm, hp]; norm_num
  refine ⟨⟨?_, ?_⟩, ⟨?_, ?_⟩, ⟨?_, ?_⟩, ⟨?_, ?_⟩⟩
  · rw [← hn2]; exact deg_le (Real.neg_pi_div_two_le_arcsin _)
  · rw [← hp2]; exact deg_le (Real.arcsin_le_pi_div_two _)
  · exact le_of_eq_of_le (mul_zero (rad2deg libm)).symm (deg_le (rasc_mem _ (atan2_mem _ _).1 (atan2_mem _ _).2).1)
  · rw [← h2p]; exact deg_lt (rasc_mem _ (atan2_mem _ _).1 (atan2_mem _ _).2).2
  · rw [← hpn]; exact deg_le (wrap_mem _).1
  · rw [← hp]; exact deg_lt (wrap_mem _).2
  · rw [← hpn]; exact deg_le (wrap_mem _).1
  · rw [← hp]; exact deg_lt (wrap_mem _).2

/-- **C47**, zenith angle: within [0, 180] degrees for radii up to one astronomical unit. -/
theorem C47_zenith (mjd2k lat lon rad dtt : ℝ) (h0 : 0 ≤ rad) (h1 : rad ≤ 149597871) :
    0 ≤ (sunpos libm tan mjd2k lat lon rad dtt).zenith ∧ (sunpos libm tan mjd2k lat lon rad dtt).zenith ≤ 180 := by
  rw [sunpos_fields]
  simp only []
  obtain ⟨z0, a, b, -, h⟩ := zenith_eq tan (sunpos5equat libm mjd2k dtt (lon * (Real.pi / 180))).1
    (sunpos5equat libm mjd2k dtt (lon * (Real.pi / 180))).2.2 (lat * (Real.pi / 180)) rad
  have hs : 0 ≤ Real.sin z0 := Real.sin_nonneg_of_nonneg_of_le_pi a b
  have hs2 : Real.sin z0 ≤ Real.pi - z0 := by
    rw [← Real.sin_pi_sub]; exact Real.sin_le (by linarith)
  have hr : rad / 149597871 ≤ 1 := by rw [div_le_one (by norm_num)]; exact h1
  have hr0 : 0 ≤ rad / 149597871 := by positivity
  rw [h]
  constructor
  · have := deg_le (show (0 : ℝ) ≤ z0 + Real.sin z0 * (rad / 149597871) by nlinarith)
    rwa [mul_zero] at this
  · rw [← deg_pi]
    exact deg_le (by nlinarith)

/-! ### The direction to the Sun -/

/-- Ecliptic longitude and obliquity at the given time. -/
noncomputable def sunLambda (mjd2k dtt : ℝ) : ℝ := (ecliptic libm (1 / 86400 * dtt + (mjd2k + 43 - 21958))).2.1
noncomputable def obliquity (mjd2k dtt : ℝ) : ℝ := (ecliptic libm (1 / 86400 * dtt + (mjd2k + 43 - 21958))).2.2

/-- Sidereal time at Greenwich used by the algorithm [rad]. -/
noncomputable def sidereal (mjd2k dtt : ℝ) : ℝ :=
  17528311 / 10 ^ 7 + 6300388099 / 10 ^ 9 * (mjd2k + 43 - 21958) +
    92 / 100 * (ecliptic libm (1 / 86400 * dtt + (mjd2k + 43 - 21958))).1

theorem rad_deg (x : ℝ) : rad2deg libm * x * (Real.pi / 180) = x := by
  rw [deg_scale]
  have := Real.pi_ne_zero
  field_simp

/-- The obliquity is an acute angle over tens of thousands of years. -/
theorem obliquity_acute (mjd2k dtt : ℝ) (ht : |mjd2k| ≤ 10 ^ 7) (hd : |dtt| ≤ 10 ^ 9) :
    |obliquity mjd2k dtt| < Real.pi / 2 := by
  obtain ⟨t1, t2⟩ := abs_le.mp ht
  obtain ⟨d1, d2⟩ := abs_le.mp hd
  set te : ℝ := 1 / 86400 * dtt + (mjd2k + 43 - 21958) with hte
  have e : obliquity mjd2k dtt = 4089567 / 10 ^ 7 - 619 / 10 ^ 11 * te + 446 / 10 ^ 7 * Real.cos (9282 / 10 ^ 7 * te - 8 / 10) := rfl
  have c1 := Real.neg_one_le_cos (9282 / 10 ^ 7 * te - 8 / 10)
  have c2 := Real.cos_le_one (9282 / 10 ^ 7 * te - 8 / 10)
  have b1 : te ≤ 10 ^ 8 := by rw [hte]; norm_num at *; linarith
  have b2 : -10 ^ 8 ≤ te := by rw [hte]; norm_num at *; linarith
  have hp := Real.pi_gt_three
  rw [e, abs_lt]
  norm_num at *
  constructor <;> linarith

/-- **C54**.  Declination and right ascension are the spherical coordinates of the unit vector of the
ecliptic longitude turned by the obliquity about the direction of the vernal equinox; they do
not depend on the location. -/
theorem C54_equatorial (mjd2k lat lon rad dtt : ℝ) (ht : |mjd2k| ≤ 10 ^ 7) (hd : |dtt| ≤ 10 ^ 9) :
    let s := sunpos libm tan mjd2k lat lon rad dtt
    let d := s.decl * (Real.pi / 180)
    let a := s.rasc * (Real.pi / 180)
    let lam := sunLambda mjd2k dtt
    let eps := obliquity mjd2k dtt
    Real.cos d * Real.cos a = Real.cos lam ∧ Real.cos d * Real.sin a = Real.cos eps * Real.sin lam ∧
      Real.sin d = Real.sin eps * Real.sin lam ∧ |s.decl| < 90 := by
  have hac := obliquity_acute mjd2k dtt ht hd
  have ho : 0 < Real.cos (obliquity mjd2k dtt) := Real.cos_pos_of_mem_Ioo (abs_lt.mp hac)
  set lam := sunLambda mjd2k dtt with hlam
  set eps := obliquity mjd2k dtt with heps
  have hce : Real.sqrt (1 - Real.sin eps * Real.sin eps) = Real.cos eps := by
    rw [← abs_of_pos ho, ← Real.sqrt_sq_eq_abs]
    congr 1
    nlinarith [Real.sin_sq_add_cos_sq eps]
  set r0 := atan2 (Real.sin lam * Real.sqrt (1 - Real.sin eps * Real.sin eps)) (Real.cos lam) with hr0
  have e1 : (sunpos libm tan mjd2k lat lon rad dtt).decl = rad2deg libm * Real.arcsin (Real.sin lam * Real.sin eps) := rfl
  have e2 : (sunpos libm tan mjd2k lat lon rad dtt).rasc = rad2deg libm * (r0 + (if r0 < 0 then 2 * Real.pi else 0)) := rfl
  have hlt : |Real.sin lam * Real.sin eps| < 1 := by
    rw [abs_mul]
    have h1 := Real.abs_sin_le_one lam
    have h2 : |Real.sin eps| < 1 := by
      rw [abs_lt]
      constructor <;> nlinarith [Real.sin_sq_add_cos_sq eps]
    calc |Real.sin lam| * |Real.sin eps| ≤ 1 * |Real.sin eps| := by gcongr
      _ < 1 := by linarith
  obtain ⟨l1, l2⟩ := abs_lt.mp hlt
  have hcd : Real.cos (Real.arcsin (Real.sin lam * Real.sin eps)) =
      Real.sqrt (Real.cos lam * Real.cos lam + Real.sin lam * Real.sqrt (1 - Real.sin eps * Real.sin eps) *
        (Real.sin lam * Real.sqrt (1 - Real.sin eps * Real.sin eps))) := by
    rw [Real.cos_arcsin, hce]
    congr 1
    have q1 := Real.sin_sq_add_cos_sq lam
    have q2 := Real.sin_sq_add_cos_sq eps
    have : Real.cos lam * Real.cos lam + Real.sin lam * Real.cos eps * (Real.sin lam * Real.cos eps) =
        Real.cos lam ^ 2 + Real.sin lam ^ 2 * Real.cos eps ^ 2 := by ring
    rw [this, show Real.cos eps ^ 2 = 1 - Real.sin eps ^ 2 by linarith, show Real.cos lam ^ 2 = 1 - Real.sin lam ^ 2 by linarith]
    ring
  have hca : Real.cos (r0 + (if r0 < 0 then 2 * Real.pi else 0)) = Real.cos r0 := by
    split
    · exact Real.cos_add_two_pi _
    · rw [add_zero]
  have hsa : Real.sin (r0 + (if r0 < 0 then 2 * Real.pi else 0)) = Real.sin r0 := by
    split
    · exact Real.sin_add_two_pi _
    · rw [add_zero]
  simp only [e1, e2, rad_deg]
  rw [hca, hsa, hcd]
  refine ⟨cos_atan2 _ _, ?_, ?_, ?_⟩
  · rw [sin_atan2, hce, mul_comm]
  · rw [Real.sin_arcsin l1.le l2.le, mul_comm]
  · rw [abs_lt]
    have hp2 : rad2deg libm * (Real.pi / 2) = 90 := by rw [← mul_div_assoc, deg_pi]; norm_num
    have hn2 : rad2deg libm * (-(Real.pi / 2)) = -90 := by rw [mul_neg, hp2]
    constructor
    · rw [← hn2]; exact deg_lt (Real.neg_pi_div_two_lt_arcsin.mpr l1)
    · rw [← hp2]; exact deg_lt (Real.arcsin_lt_pi_div_two.mpr l2)

/-- **C54**.  The hour angle is the local sidereal time less the right ascension, up to full
circles. -/
theorem C54_hour_angle (mjd2k lat lon rad dtt : ℝ) :
    let s := sunpos libm tan mjd2k lat lon rad dtt
    ∃ k : Int, s.hang = sidereal mjd2k dtt * (180 / Real.pi) + lon - s.rasc + 360 * k := by
  intro s
  set e := sunpos5equat libm mjd2k dtt (lon * (Real.pi / 180)) with he
  have h2 : s.rasc = rad2deg libm * e.2.1 := rfl
  have h3 : s.hang = rad2deg libm * e.2.2 := rfl
  set th0 := (17528311 / 10 ^ 7 + 6300388099 / 10 ^ 9 * (mjd2k + 43 - 21958) + lon * (Real.pi / 180) - e.2.1 +
      92 / 100 * (ecliptic libm (1 / 86400 * dtt + (mjd2k + 43 - 21958))).1) + Real.pi with hth
  have h4 : e.2.2 = fmodFloor th0 (2 * Real.pi) - Real.pi := rfl
  obtain ⟨k, hk⟩ := wrap_angle th0
  refine ⟨k, ?_⟩
  rw [h3, h2, h4, hk, hth, deg_scale, deg_scale]
  unfold sidereal
  have := Real.pi_ne_zero
  field_simp
  ring

/-- **C54**.  Azimuth `A` (from north to east) and zenith angle are the direction to the Sun in the local
frame: with the unit vector of the Sun given by the declination and the hour angle, its
components to the east, to the north and up are `sin z0 sin A`, `sin z0 cos A` and `cos z0`, and
the zenith angle is `z0` plus the parallax. -/
theorem C54_horizontal (mjd2k lat lon rad dtt : ℝ) (ht : |mjd2k| ≤ 10 ^ 7) (hd : |dtt| ≤ 10 ^ 9) (hl : |lat| ≤ 90) :
    let s := sunpos libm tan mjd2k lat lon rad dtt
    let d := s.decl * (Real.pi / 180)
    let h := s.hang * (Real.pi / 180)
    let a := s.azimuth * (Real.pi / 180)
    let p := lat * (Real.pi / 180)
    ∃ z0, 0 ≤ z0 ∧ z0 ≤ Real.pi ∧ s.zenith * (Real.pi / 180) = z0 + Real.sin z0 * (rad / 149597871) ∧
      Real.sin z0 * Real.sin a = -(Real.cos d * Real.sin h) ∧
      Real.sin z0 * Real.cos a = Real.cos p * Real.sin d - Real.sin p * Real.cos d * Real.cos h ∧
      Real.cos z0 = Real.sin p * Real.sin d + Real.cos p * Real.cos d * Real.cos h := by
  intro s d h a p
  have hdec : |s.decl| < 90 := (C54_equatorial tan mjd2k lat lon rad dtt ht hd).2.2.2
  have hpi := Real.pi_pos
  obtain ⟨b1, b2⟩ := abs_lt.mp hdec
  obtain ⟨l1, l2⟩ := abs_le.mp hl
  have hcd : 0 < Real.cos d := by
    apply Real.cos_pos_of_mem_Ioo
    constructor <;> simp only [d] <;> nlinarith
  have hcp : 0 ≤ Real.cos p := by
    apply Real.cos_nonneg_of_mem_Icc
    constructor <;> simp only [p] <;> nlinarith
  set e := sunpos5equat libm mjd2k dtt (lon * (Real.pi / 180)) with he
  have f1 : d = e.1 := rad_deg e.1
  have f3 : h = e.2.2 := rad_deg e.2.2
  have f4 : a = (sunpos5eq2hor libm tan e.1 e.2.2 p rad 0 0).1 := rad_deg _
  have f5 : s.zenith * (Real.pi / 180) = (sunpos5eq2hor libm tan e.1 e.2.2 p rad 0 0).2 := rad_deg _
  obtain ⟨z0, z1, z2, z3, z4⟩ := zenith_eq tan e.1 e.2.2 p rad
  rw [← f1, ← f3, abs_of_pos hcd, abs_of_nonneg hcp] at z3
  refine ⟨z0, z1, z2, by rw [f5, z4], ?_, ?_, z3⟩
  all_goals
    have hc : ∀ x : ℝ, 0 ≤ Real.cos x → Real.sqrt (1 - Real.sin x * Real.sin x) = Real.cos x := by
      intro x hx
      rw [← abs_of_nonneg hx, ← Real.sqrt_sq_eq_abs]
      congr 1
      nlinarith [Real.sin_sq_add_cos_sq x]
    set X := Real.cos h * Real.sin p - Real.sin d * Real.cos p / Real.cos d with hX
    have ha : a = fmodFloor (atan2 (Real.sin h) X) (2 * Real.pi) - Real.pi := by
      rw [f4]
      show fmodFloor (atan2 (Real.sin e.2.2) (Real.cos e.2.2 * Real.sin p - Real.sin e.1 *
        Real.sqrt (1 - Real.sin p * Real.sin p) / Real.sqrt (1 - Real.sin e.1 * Real.sin e.1))) (2 * Real.pi) - Real.pi = _
      rw [← f1, ← f3, hc p hcp, hc d hcd.le]
    obtain ⟨k, hk⟩ := wrap_angle (atan2 (Real.sin h) X)
    rw [hk] at ha
    have hsa : Real.sin a = -Real.sin (atan2 (Real.sin h) X) := by
      rw [ha, Real.sin_sub_pi, Real.sin_add_int_mul_two_pi]
    have hca : Real.cos a = -Real.cos (atan2 (Real.sin h) X) := by
      rw [ha, Real.cos_sub_pi, Real.cos_add_int_mul_two_pi]
    have hsz0 : 0 ≤ Real.sin z0 := Real.sin_nonneg_of_nonneg_of_le_pi z1 z2
    have hsz : Real.sin z0 = Real.cos d * Real.sqrt (X * X + Real.sin h * Real.sin h) := by
      have hsq : Real.sin z0 ^ 2 = (Real.cos d * Real.sqrt (X * X + Real.sin h * Real.sin h)) ^ 2 := by
        have hXc : X * Real.cos d = Real.cos h * Real.sin p * Real.cos d - Real.sin d * Real.cos p := by
          rw [hX]; field_simp
        rw [mul_pow, Real.sq_sqrt (add_nonneg (mul_self_nonneg _) (mul_self_nonneg _))]
        have : Real.cos d ^ 2 * (X * X + Real.sin h * Real.sin h) = (X * Real.cos d) ^ 2 + Real.cos d ^ 2 * Real.sin h ^ 2 := by ring
        rw [this, hXc]
        have q0 := Real.sin_sq_add_cos_sq z0
        have q1 := Real.sin_sq_add_cos_sq p
        have q2 := Real.sin_sq_add_cos_sq d
        have q3 := Real.sin_sq_add_cos_sq h
        rw [show Real.sin z0 ^ 2 = 1 - Real.cos z0 ^ 2 by linarith, z3, show Real.sin h ^ 2 = 1 - Real.cos h ^ 2 by linarith]
        have e1 : Real.sin p ^ 2 = 1 - Real.cos p ^ 2 := by linarith
        have e2 : Real.sin d ^ 2 = 1 - Real.cos d ^ 2 := by linarith
        linear_combination (-(Real.sin d ^ 2) - Real.cos d ^ 2 * Real.cos h ^ 2) * e1 - e2
      exact (sq_eq_sq₀ hsz0 (mul_nonneg hcd.le (Real.sqrt_nonneg _))).mp hsq
  · rw [hsa, hsz]
    have := sin_atan2 (Real.sin h) X
    linear_combination (-Real.cos d) * this
  · rw [hca, hsz]
    have := cos_atan2 (Real.sin h) X
    have hXc : X * Real.cos d = Real.cos h * Real.sin p * Real.cos d - Real.sin d * Real.cos p := by
      rw [hX]; field_simp
    linear_combination (-Real.cos d) * this - hXc

end

/-! ### The original algorithm -/

section original
variable {K : Type} [Field K] [LinearOrder K] [IsStrictOrderedRing K] [FloorRing K]

open Verif.Time

theorem toInt_eq (x : K) (z : Int) (h0 : 0 ≤ z) (h1 : (z : K) ≤ x) (h2 : x < z + 1) : toInt x = z := by
  have hz : (0 : K) ≤ z := by exact_mod_cast h0
  unfold toInt
  rw [if_pos (hz.trans h1)]
  exact Int.floor_eq_iff.mpr ⟨h1, h2⟩

/-- **C55**.  The days of a date are the days since 2000-01-01 (plus 43) for all dates from 2000-03-01 to
2400-02-29. -/
theorem C55_days (day : Int) (h1 : 60 ≤ day) (h2 : day < 146157) :
    dateDays (K := K) (yearOf day) (monthOf day) (dayOf day) = day + 43 := by
  obtain ⟨q, n, hq, hn, hy, hm, hd, hcase⟩ := decomp day (by unfold firstDay; omega)
  obtain ⟨-, g2, g3⟩ : _ := hcase.resolve_left (by omega)
  have hq1 : 6716 ≤ q := by
    by_contra hc
    have := SG_mono.monotone (show q + 1 ≤ (6716 : Int) by omega)
    have e : SG 6716 = 2452968 := by decide
    omega
  have hq2 : q < 7116 := by
    by_contra hc
    have := SG_mono.monotone (show (7116 : Int) ≤ q by omega)
    have e : SG 7116 = 2599065 := by decide
    omega
  have hlen := SG_len q
  have hn2 : n ≤ 365 := by split at hlen <;> omega
  rw [hy, hm, hd]
  set mi := (5 * n + 2) / 153 with hmi
  have hmi1 : 0 ≤ mi := by omega
  have hmi2 : mi ≤ 11 := by omega
  have hmonth : mQ n + 12 * (if mQ n ≤ 2 then 1 else 0) = mi + 3 := by
    unfold mQ
    by_cases hc : 306 ≤ n
    · rw [if_pos hc, if_pos (by omega)]; omega
    · rw [if_neg hc, if_neg (by omega)]; omega
  have hyear : yQ q n - (if mQ n ≤ 2 then 1 else 0) = q - 4716 := by
    unfold yQ mQ
    by_cases hc : 306 ≤ n
    · rw [if_pos hc, if_pos hc, if_pos (by omega)]; omega
    · rw [if_neg hc, if_neg hc, if_neg (by omega)]; omega
  unfold dateDays
  simp only [hmonth, hyear]
  have t1 : toInt (36525 / 100 * ((q - 4716 - 2000 : Int) : K)) = 1461 * (q - 6716) / 4 := by
    have b1 : 4 * (1461 * (q - 6716) / 4) ≤ 1461 * (q - 6716) := by omega
    have b2 : 1461 * (q - 6716) < 4 * (1461 * (q - 6716) / 4) + 4 := by omega
    have c1 : ((4 * (1461 * (q - 6716) / 4) : Int) : K) ≤ ((1461 * (q - 6716) : Int) : K) := by exact_mod_cast b1
    have c2 : ((1461 * (q - 6716) : Int) : K) < ((4 * (1461 * (q - 6716) / 4) + 4 : Int) : K) := by exact_mod_cast b2
    apply toInt_eq
    · omega
    · push_cast at c1 ⊢; linarith
    · push_cast at c2 ⊢; linarith
  have t2 : toInt (306001 / 10000 * ((mi + 3 + 1 : Int) : K)) = (153 * mi + 2) / 5 + 122 := by
    have b1 : 10000 * ((153 * mi + 2) / 5 + 122) ≤ 306001 * (mi + 4) := by interval_cases mi <;> omega
    have b2 : 306001 * (mi + 4) < 10000 * ((153 * mi + 2) / 5 + 122) + 10000 := by interval_cases mi <;> omega
    have c1 : ((10000 * ((153 * mi + 2) / 5 + 122) : Int) : K) ≤ ((306001 * (mi + 4) : Int) : K) := by exact_mod_cast b1
    have c2 : ((306001 * (mi + 4) : Int) : K) < ((10000 * ((153 * mi + 2) / 5 + 122) + 10000 : Int) : K) := by exact_mod_cast b2
    apply toInt_eq
    · omega
    · push_cast at c1 ⊢; linarith
    · push_cast at c2 ⊢; linarith
  have t3 : toInt (1 / 100 * ((q - 4716 : Int) : K)) = (q - 4716) / 100 := by
    have b1 : 100 * ((q - 4716) / 100) ≤ q - 4716 := by omega
    have b2 : q - 4716 < 100 * ((q - 4716) / 100) + 100 := by omega
    have c1 : ((100 * ((q - 4716) / 100) : Int) : K) ≤ ((q - 4716 : Int) : K) := by exact_mod_cast b1
    have c2 : ((q - 4716 : Int) : K) < ((100 * ((q - 4716) / 100) + 100 : Int) : K) := by exact_mod_cast b2
    apply toInt_eq
    · omega
    · push_cast at c1 ⊢; linarith
    · push_cast at c2 ⊢; linarith
  rw [t1, t2, t3]
  have hdq : dQ n = n - (153 * mi + 2) / 5 + 1 := by
    unfold dQ
    have : 5 * n + 2 = 153 * mi + (5 * n + 2) % 153 := by omega
    omega
  rw [hdq]
  have hSG : SG q = 365 * q + q / 4 - (q + 184) / 100 * 3 / 4 := rfl
  have hk : (q + 184) / 100 * 3 / 4 = (q - 4716) / 100 + 31 := by
    have e1 : (q + 184) / 100 = (q - 4716) / 100 + 49 := by omega
    have e2 : 20 ≤ (q - 4716) / 100 := by omega
    have e3 : (q - 4716) / 100 ≤ 23 := by omega
    rw [e1]
    generalize (q - 4716) / 100 = c at e2 e3 ⊢
    interval_cases c <;> rfl
  have h4 : 1461 * (q - 6716) / 4 = 365 * q + q / 4 - 2452968 - 51 := by omega
  rw [hk] at hSG
  omega

/-- **C55**.  `date_to_sunposmjd2k` undoes `mjd2k_to_date` for all times from 2000-03-01 to the end of
2400-02-29. -/
theorem C55_date (t : K) (h1 : 60 ≤ t) (h2 : t < 146157) :
    let d := mjd2kToDate t
    dateToSunposMjd2k d.1 d.2.1 d.2.2.1 d.2.2.2 = t := by
  have f1 : 60 ≤ ⌊t⌋ := Int.le_floor.mpr (by exact_mod_cast h1)
  have f2 : ⌊t⌋ < 146157 := Int.floor_lt.mpr (by exact_mod_cast h2)
  show ((dateDays (K := K) (yearOf ⌊t⌋) (monthOf ⌊t⌋) (dayOf ⌊t⌋) : Int) : K) + 1 / 24 * (24 * (t - (⌊t⌋ : K))) - 43 = t
  rw [C55_days _ f1 f2]
  push_cast
  ring

/-- **C55**.  Without the correction of the refraction and of the terrestrial time, `sunpos_original` and
`sunpos` give the same coordinates at all times from 2000-03-01 to the end of 2400-02-29, at
every location. -/
theorem C55_original (L : Libm K) (tan : K → K) (t lat lon rad temp : K) (h1 : 60 ≤ t) (h2 : t < 146157) :
    sunposOriginal L tan t lat lon rad 0 0 temp = sunpos L tan t lat lon rad 0 := by
  have hd := C55_date t h1 h2
  have f1 : 60 ≤ ⌊t⌋ := Int.le_floor.mpr (by exact_mod_cast h1)
  have f2 : ⌊t⌋ < 146157 := Int.floor_lt.mpr (by exact_mod_cast h2)
  have ht : ((dateDays (K := K) (yearOf ⌊t⌋) (monthOf ⌊t⌋) (dayOf ⌊t⌋) : Int) : K) + 1 / 24 * (24 * (t - (⌊t⌋ : K))) - 21958 =
      t + 43 - 21958 := by
    rw [C55_days _ f1 f2]
    push_cast
    ring
  unfold sunposOriginal sunpos mjd2kToDate sunpos5original sunpos5equat sunpos5eq2hor
  simp only [ht, mul_zero, add_zero, zero_add, gt_iff_lt, lt_self_iff_false, false_and, if_false]
  have : ∀ x : K, x + (if x < 0 then 2 * L.pi else 0) = if x < 0 then x + 2 * L.pi else x := by
    intro x; split <;> simp
  simp only [this]

/-- **C55**, before the documented range: the days of 2000-01-01 come out as 2. -/
theorem C55_before : dateToSunposMjd2k (K := ℚ) 2000 1 1 0 = 2 := by
  unfold dateToSunposMjd2k dateDays toInt
  norm_num

/-- **C55** (after).  One day after the end of the range the result is one day less than the day number of
2400-03-01, which is 146157 (`yearOf`, `monthOf` and `dayOf` give that date). -/
theorem C55_after : dateToSunposMjd2k (K := ℚ) 2400 3 1 0 = 146156 ∧
    yearOf 146157 = 2400 ∧ monthOf 146157 = 3 ∧ dayOf 146157 = 1 := by
  refine ⟨?_, by decide⟩
  unfold dateToSunposMjd2k dateDays toInt
  norm_num

/-- The hypotheses of C54 hold at ordinary times and places. -/
example : ∃ z0, 0 ≤ z0 ∧ z0 ≤ Real.pi ∧ Real.cos z0 =
    Real.sin (45 * (Real.pi / 180)) * Real.sin ((sunpos libm Real.tan 5660 45 15 6371 60).decl * (Real.pi / 180)) +
    Real.cos (45 * (Real.pi / 180)) * Real.cos ((sunpos libm Real.tan 5660 45 15 6371 60).decl * (Real.pi / 180)) *
      Real.cos ((sunpos libm Real.tan 5660 45 15 6371 60).hang * (Real.pi / 180)) := by
  obtain ⟨z0, a, b, -, -, -, c⟩ := C54_horizontal Real.tan 5660 45 15 6371 60 (by norm_num) (by norm_num) (by norm_num)
  exact ⟨z0, a, b, c⟩

/-- The zenith angle is in its range at an ordinary time and place. -/
example : (sunpos libm Real.tan 5660 45 15 6371 60).zenith ≤ 180 :=
  (C47_zenith Real.tan 5660 45 15 6371 60 (by norm_num) (by norm_num)).2

/-- The range is not empty. -/
example : dateDays (K := ℚ) 2015 7 1 = 5660 + 43 := by
  have := C55_days (K := ℚ) 5660 (by norm_num) (by norm_num)
  have e : yearOf 5660 = 2015 ∧ monthOf 5660 = 7 ∧ dayOf 5660 = 1 := by decide
  rw [e.1, e.2.1, e.2.2] at this
  exact this

end original

end Verif.Props
