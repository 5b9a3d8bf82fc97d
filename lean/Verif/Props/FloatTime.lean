/-
C71: time conversions in double precision.
-/
import Verif.Props.Time
import Verif.Spec.Binary64
import Mathlib.Tactic.LinearCombination
import Verif.Model.FloatTime

set_option linter.unusedSectionVars false

namespace Verif.Props

open Verif.Time Verif.FloatTime Verif.Spec

/-- C71: without rounding these are the functions of Model/Time.lean. -/
theorem C71_exact (t : ℝ) : decimalYearF id t = mjd2kToDecimalYear t ∧ toMjd2kF id t = decimalYearToMjd2k t ∧
    yearFractionF id t = mjd2kToYearFraction t ∧ dateF id t = mjd2kToDate t := ⟨rfl, rfl, rfl, rfl⟩

theorem float_daysPerYear_cases (y : Int) :
    (isLeapYear y = true ∧ daysPerYear y = 366) ∨ (isLeapYear y = false ∧ daysPerYear y = 365) := by
  unfold daysPerYear
  cases isLeapYear y <;> simp

/-- Position of a time in its year. -/
theorem float_year (t : ℝ) (h : (firstDay : ℝ) ≤ t) (h' : t ≤ 500000000) :
    0 ≤ t - (yearStart (mjd2kToYear t) : ℝ) ∧ t - (yearStart (mjd2kToYear t) : ℝ) < (yearLength (mjd2kToYear t) : ℝ) ∧
    -4799 ≤ mjd2kToYear t ∧ mjd2kToYear t ≤ 2000000 := by
  have hd : firstDay ≤ ⌊t⌋ := Int.le_floor.mpr h
  obtain ⟨b1, b2⟩ := C07_year_bracket ⌊t⌋ hd
  obtain ⟨q, n, hq, hn, hyq, -, -, -⟩ := decomp ⌊t⌋ hd
  have hy1 : -4799 ≤ yearOf ⌊t⌋ := by rw [hyq]; unfold yQ; split <;> omega
  have hlen := C07_year_length _ hy1
  have h5 : ⌊t⌋ ≤ 500000000 := by
    have := Int.floor_le_floor h'
    rwa [show ((500000000 : ℝ)) = ((500000000 : Int) : ℝ) by norm_num, Int.floor_intCast] at this
  unfold mjd2kToYear
  have hy2 : yearOf ⌊t⌋ ≤ 2000000 := by
    have b1' := b1
    unfold yearStart at b1'
    dsimp only at b1'
    rw [Int.tdiv_eq_ediv_of_nonneg (by omega), Int.tdiv_eq_ediv_of_nonneg (by omega),
      Int.tdiv_eq_ediv_of_nonneg (by omega)] at b1'
    split at b1' <;> omega
  have hfl := Int.floor_le t
  have hlt := Int.lt_floor_add_one t
  have c1 : ((yearStart (yearOf ⌊t⌋) : Int) : ℝ) ≤ (⌊t⌋ : ℝ) := by exact_mod_cast b1
  have c2 : ((⌊t⌋ : Int) : ℝ) + 1 ≤ (yearStart (yearOf ⌊t⌋) : ℝ) + (yearLength (yearOf ⌊t⌋) : ℝ) := by
    have : ⌊t⌋ + 1 ≤ yearStart (yearOf ⌊t⌋) + yearLength (yearOf ⌊t⌋) := by omega
    exact_mod_cast this
  exact ⟨by linarith, by linarith, hy1, hy2⟩

section
variable {rnd : ℝ → ℝ} (R : Nearest rnd)
include R

theorem float_rate (y : Int) : 0 ≤ yearsPerDayF rnd y ∧
    |yearsPerDayF rnd y - 1 / (daysPerYear y : ℝ)| ≤ 2 ^ (-62 : ℤ) ∧ yearsPerDayF rnd y ≤ 1 / 256 := by
  have key : ∀ x : ℝ, 0 ≤ x → x ≤ 1 / 256 → 0 ≤ rnd x ∧ |rnd x - x| ≤ 2 ^ (-62 : ℤ) ∧ rnd x ≤ 1 / 256 := by
    intro x h0 h1
    refine ⟨R.nonneg h0, ?_, R.le_of_le ⟨1, -8, by norm_num, by norm_num, by norm_num⟩ h1⟩
    have := R.err (x := x) (k := -8) (by norm_num) (by rw [abs_of_nonneg h0]; norm_num; linarith)
    simpa using this
  unfold yearsPerDayF
  rcases float_daysPerYear_cases y with ⟨h1, h2⟩ | ⟨h1, h2⟩
  · rw [h1, h2, if_pos rfl]
    have := key (1 / 366) (by norm_num) (by norm_num)
    simpa using this
  · rw [h1, h2, if_neg (by simp)]
    have := key (1 / 365) (by norm_num) (by norm_num)
    simpa using this

theorem float_whole (y : Int) : rnd ((daysPerYear y : ℝ) * yearsPerDayF rnd y) ≤ 1 := by
  obtain ⟨h0, h1, -⟩ := float_rate R y
  set p := yearsPerDayF rnd y
  obtain ⟨-, h1⟩ := abs_le.mp h1
  have hL : (daysPerYear y : ℝ) = 366 ∨ (daysPerYear y : ℝ) = 365 := by
    rcases float_daysPerYear_cases y with ⟨-, h⟩ | ⟨-, h⟩ <;> rw [h] <;> norm_num
  have hx : (daysPerYear y : ℝ) * p ≤ 1 + 366 * 2 ^ (-62 : ℤ) := by
    rcases hL with h | h <;> rw [h] at h1 ⊢ <;> norm_num only at h1 ⊢ <;> linarith
  by_contra hc
  push Not at hc
  have hge : 1 + 2 ^ (-52 : ℤ) ≤ rnd ((daysPerYear y : ℝ) * p) := by
    obtain ⟨m, e, m1, m2, m3⟩ := R.mem ((daysPerYear y : ℝ) * p)
    rw [m3] at hc ⊢
    have h2 : (m : ℝ) ≤ 2 ^ 53 := by exact_mod_cast (abs_le.mp m1).2
    have he : -52 ≤ e := by
      by_contra hne
      push Not at hne
      have : (2 : ℝ) ^ e ≤ 2 ^ (-53 : ℤ) := zpow_le_zpow_right₀ (by norm_num) (by omega)
      have hp : (0 : ℝ) < 2 ^ e := by positivity
      have : (m : ℝ) * 2 ^ e ≤ 2 ^ 53 * 2 ^ (-53 : ℤ) := by
        calc (m : ℝ) * 2 ^ e ≤ 2 ^ 53 * 2 ^ e := mul_le_mul_of_nonneg_right h2 hp.le
          _ ≤ 2 ^ 53 * 2 ^ (-53 : ℤ) := mul_le_mul_of_nonneg_left this (by positivity)
      norm_num only at this
      linarith
    obtain ⟨k, hk⟩ : ∃ k : ℕ, e + 52 = k := ⟨(e + 52).toNat, by omega⟩
    have ee : (2 : ℝ) ^ e = (2 ^ k : ℤ) * 2 ^ (-52 : ℤ) := by
      have : e = (k : ℤ) + (-52) := by omega
      rw [this, zpow_add₀ (by norm_num)]
      push_cast
      rw [zpow_natCast]
    rw [ee, ← mul_assoc] at hc ⊢
    have hi : ((2 ^ 52 : ℤ) : ℝ) < ((m * 2 ^ k : ℤ) : ℝ) := by
      have h52 : (2 : ℝ) ^ (-52 : ℤ) = 1 / 2 ^ 52 := by norm_num
      rw [h52, mul_one_div, lt_div_iff₀ (by positivity), one_mul] at hc
      push_cast at hc ⊢
      exact lt_of_eq_of_lt (by norm_num) hc
    have hi2 : (2 ^ 52 : ℤ) + 1 ≤ m * 2 ^ k := Int.cast_lt.mp hi
    have hi3 : ((2 : ℝ) ^ 52 + 1) ≤ (m : ℝ) * ((2 ^ k : ℤ) : ℝ) := by
      have : (((2 ^ 52 : ℤ) + 1 : ℤ) : ℝ) ≤ ((m * 2 ^ k : ℤ) : ℝ) := Int.cast_le.mpr hi2
      push_cast at this ⊢
      exact le_trans (by norm_num) this
    calc (1 : ℝ) + 2 ^ (-52 : ℤ) = (2 ^ 52 + 1) * 2 ^ (-52 : ℤ) := by norm_num
      _ ≤ _ := mul_le_mul_of_nonneg_right hi3 (by positivity)
  have hn := R.near ((daysPerYear y : ℝ) * p) 1 F64.one
  rw [abs_of_nonneg (by norm_num only at hx hge ⊢; linarith)] at hn
  rcases le_total ((daysPerYear y : ℝ) * p) 1 with h | h
  · rw [abs_of_nonneg (by linarith)] at hn
    norm_num only at hge
    linarith
  · rw [abs_of_nonpos (by linarith)] at hn
    norm_num only at hge hx
    linarith

/-- The computed fraction of the year. -/
theorem float_fraction (t : ℝ) (h : (firstDay : ℝ) ≤ t) (h' : t ≤ 500000000) :
    0 ≤ yearFractionF rnd t ∧ yearFractionF rnd t ≤ 1 := by
  obtain ⟨a1, a2, -, -⟩ := float_year t h h'
  obtain ⟨p0, -, -⟩ := float_rate R (mjd2kToYear t)
  have hle : (yearLength (mjd2kToYear t) : ℝ) ≤ (daysPerYear (mjd2kToYear t) : ℝ) := by
    exact_mod_cast yearLength_le (mjd2kToYear t)
  have hL : (daysPerYear (mjd2kToYear t) : ℝ) ∈ F64 := by
    apply F64.int
    rcases float_daysPerYear_cases (mjd2kToYear t) with ⟨-, h⟩ | ⟨-, h⟩ <;> rw [h] <;> norm_num
  unfold yearFractionF
  refine ⟨R.nonneg (mul_nonneg (R.nonneg a1) p0), ?_⟩
  refine le_trans (R.mono ?_) (float_whole R (mjd2kToYear t))
  exact mul_le_mul_of_nonneg_right (R.le_of_le hL (by linarith)) p0

theorem float_decimalYear (t : ℝ) : decimalYearF rnd t = rnd ((mjd2kToYear t : ℝ) + yearFractionF rnd t) := rfl

/-- C71: the decimal year of a time computed in double precision lies in the closed interval
between its year and the next one. -/
theorem C71_within_year (t : ℝ) (h : (firstDay : ℝ) ≤ t) (h' : t ≤ 500000000) :
    (mjd2kToYear t : ℝ) ≤ decimalYearF rnd t ∧ decimalYearF rnd t ≤ (mjd2kToYear t : ℝ) + 1 := by
  obtain ⟨-, -, y1, y2⟩ := float_year t h h'
  obtain ⟨f0, f1⟩ := float_fraction R t h h'
  rw [float_decimalYear R]
  refine ⟨R.ge_of_ge (F64.int (by rw [abs_le]; constructor <;> omega)) (by linarith), ?_⟩
  refine R.le_of_le ?_ (by linarith)
  have := F64.int (n := mjd2kToYear t + 1) (by rw [abs_le]; constructor <;> omega)
  push_cast at this
  exact this

/-- C71: the decimal years computed in double precision never decrease with the time. -/
theorem C71_monotone (t1 t2 : ℝ) (h : (firstDay : ℝ) ≤ t1) (hle : t1 ≤ t2) (h' : t2 ≤ 500000000) :
    decimalYearF rnd t1 ≤ decimalYearF rnd t2 := by
  obtain ⟨-, e1⟩ := C71_within_year R t1 h (by linarith)
  obtain ⟨e2, -⟩ := C71_within_year R t2 (by linarith) h'
  have hd1 : firstDay ≤ ⌊t1⌋ := Int.le_floor.mpr h
  have hfl : ⌊t1⌋ ≤ ⌊t2⌋ := Int.floor_le_floor hle
  obtain ⟨a1, a2⟩ := C07_year_bracket _ hd1
  obtain ⟨b1, b2⟩ := C07_year_bracket _ (hd1.trans hfl)
  obtain ⟨-, -, y1, -⟩ := float_year t1 h (by linarith)
  obtain ⟨-, -, y2, -⟩ := float_year t2 (by linarith) h'
  have hy : mjd2kToYear t1 ≤ mjd2kToYear t2 := by
    by_contra hc
    push Not at hc
    have := C07_year_start_mono _ _ y2 hc
    unfold mjd2kToYear at this
    omega
  rcases eq_or_lt_of_le hy with he | hlt
  · unfold decimalYearF
    rw [he]
    dsimp only
    obtain ⟨p0, -, -⟩ := float_rate R (mjd2kToYear t2)
    apply R.mono
    have : rnd (rnd (t1 - (yearStart (mjd2kToYear t2) : ℝ)) * yearsPerDayF rnd (mjd2kToYear t2)) ≤
        rnd (rnd (t2 - (yearStart (mjd2kToYear t2) : ℝ)) * yearsPerDayF rnd (mjd2kToYear t2)) :=
      R.mono (mul_le_mul_of_nonneg_right (R.mono (by linarith)) p0)
    linarith
  · have : (mjd2kToYear t1 : ℝ) + 1 ≤ mjd2kToYear t2 := by exact_mod_cast hlt
    linarith

/-- C71: the beginning of a year is converted without any error to the whole year and back. -/
theorem C71_year_start (y : Int) (h1 : -4715 ≤ y) (h2 : y ≤ 1000000) :
    decimalYearF rnd (yearStart y : ℝ) = y ∧ toMjd2kF rnd (y : ℝ) = yearStart y := by
  have hs : |yearStart y| ≤ 2 ^ 53 := by
    unfold yearStart
    dsimp only
    rw [Int.tdiv_eq_ediv_of_nonneg (by omega), Int.tdiv_eq_ediv_of_nonneg (by omega),
      Int.tdiv_eq_ediv_of_nonneg (by omega), abs_le]
    split <;> constructor <;> omega
  have hy : |y| ≤ 2 ^ 53 := by rw [abs_le]; constructor <;> omega
  constructor
  · have hf : firstDay ≤ yearStart y := by
      unfold yearStart firstDay
      dsimp only
      rw [Int.tdiv_eq_ediv_of_nonneg (by omega), Int.tdiv_eq_ediv_of_nonneg (by omega),
        Int.tdiv_eq_ediv_of_nonneg (by omega)]
      split <;> omega
    have hyr : mjd2kToYear ((yearStart y : Int) : ℝ) = y := by
      unfold mjd2kToYear
      rw [Int.floor_intCast]
      have := C07_year_length y (by omega)
      have := yearLength_pos y
      exact C07_year_unique _ _ hf (by omega) le_rfl (by omega)
    unfold decimalYearF
    dsimp only
    rw [hyr, sub_self, R.zero, zero_mul, R.zero, add_zero, R.int hy]
  · unfold toMjd2kF
    dsimp only
    rw [Int.floor_intCast, sub_self, R.zero, zero_mul, R.zero, add_zero, R.int hs]

theorem float_fraction_err (t : ℝ) (h : (firstDay : ℝ) ≤ t) (h' : t ≤ 500000000) :
    |yearFractionF rnd t - (t - (yearStart (mjd2kToYear t) : ℝ)) / (daysPerYear (mjd2kToYear t) : ℝ)| ≤ 2 ^ (-51 : ℤ) := by
  obtain ⟨a1, a2, -, -⟩ := float_year t h h'
  obtain ⟨p0, p1, p2⟩ := float_rate R (mjd2kToYear t)
  have hle : (yearLength (mjd2kToYear t) : ℝ) ≤ (daysPerYear (mjd2kToYear t) : ℝ) := by
    exact_mod_cast yearLength_le (mjd2kToYear t)
  have hL : (daysPerYear (mjd2kToYear t) : ℝ) = 366 ∨ (daysPerYear (mjd2kToYear t) : ℝ) = 365 := by
    rcases float_daysPerYear_cases (mjd2kToYear t) with ⟨-, h⟩ | ⟨-, h⟩ <;> rw [h] <;> norm_num
  have hL1 : (365 : ℝ) ≤ (daysPerYear (mjd2kToYear t) : ℝ) ∧ (daysPerYear (mjd2kToYear t) : ℝ) ≤ 366 := by
    rcases hL with h | h <;> rw [h] <;> norm_num
  unfold yearFractionF
  dsimp only
  generalize (daysPerYear (mjd2kToYear t) : ℝ) = L at *
  generalize yearsPerDayF rnd (mjd2kToYear t) = p at *
  generalize t - (yearStart (mjd2kToYear t) : ℝ) = d at *
  have hd : d ≤ 366 := by linarith
  have e1 := R.err (x := d) (k := 9) (by norm_num) (by rw [abs_of_nonneg a1]; norm_num; linarith)
  have d0 : 0 ≤ rnd d := R.nonneg a1
  have d1 : rnd d ≤ 366 := R.le_of_le (by simpa using F64.int (n := 366) (by norm_num)) hd
  generalize rnd d = d' at *
  have q1 : d' * p ≤ 2 := by nlinarith
  have e2 := R.err (x := d' * p) (k := 1) (by norm_num) (by rw [abs_of_nonneg (mul_nonneg d0 p0)]; norm_num; linarith)
  have e3 : |d' * p - d / L| ≤ 366 * 2 ^ (-62 : ℤ) + 2 ^ (-45 : ℤ) / 365 := by
    have : d' * p - d / L = d' * (p - 1 / L) + (d' - d) * (1 / L) := by
      have : L ≠ 0 := by linarith
      field_simp
      ring
    rw [this]
    refine (abs_add_le _ _).trans (add_le_add ?_ ?_)
    · rw [abs_mul, abs_of_nonneg d0]
      exact mul_le_mul d1 p1 (abs_nonneg _) (by norm_num)
    · rw [abs_mul, abs_of_nonneg (show (0 : ℝ) ≤ 1 / L by apply div_nonneg <;> linarith), div_eq_mul_one_div ((2 : ℝ) ^ (-45 : ℤ))]
      refine mul_le_mul (by simpa using e1) ?_ (by apply div_nonneg <;> linarith) (by positivity)
      exact one_div_le_one_div_of_le (by norm_num) hL1.1
  have : rnd (d' * p) - d / L = (rnd (d' * p) - d' * p) + (d' * p - d / L) := by ring
  rw [this]
  refine (abs_add_le _ _).trans ((add_le_add e2 e3).trans ?_)
  norm_num

/-- C71: error of the computed decimal year, years 0 to 4094. -/
theorem C71_accuracy (t : ℝ) (h : 0 ≤ mjd2kToYear t) (h' : mjd2kToYear t < 4095) (hf : (firstDay : ℝ) ≤ t)
    (hm : t ≤ 500000000) :
    |decimalYearF rnd t - mjd2kToDecimalYear t| ≤ 2 ^ (-42 : ℤ) + 2 ^ (-51 : ℤ) := by
  have e1 := float_fraction_err R t hf hm
  obtain ⟨f0, f1⟩ := float_fraction R t hf hm
  have hx : mjd2kToDecimalYear t = (mjd2kToYear t : ℝ) +
      (t - (yearStart (mjd2kToYear t) : ℝ)) / (daysPerYear (mjd2kToYear t) : ℝ) := by
    have h1 := yearsPerDay_eq (K := ℝ) (mjd2kToYear t)
    have h2 : (daysPerYear (mjd2kToYear t) : ℝ) ≠ 0 := right_ne_zero_of_mul_eq_one h1
    unfold mjd2kToDecimalYear
    dsimp only
    rw [eq_div_of_mul_eq h2 h1]
    ring
  rw [hx, float_decimalYear R]
  generalize yearFractionF rnd t = q at *
  have y0 : (0 : ℝ) ≤ mjd2kToYear t := by exact_mod_cast h
  have y1 : (mjd2kToYear t : ℝ) ≤ 4094 := by
    have : mjd2kToYear t ≤ 4094 := by omega
    exact_mod_cast this
  have e2 := R.err (x := (mjd2kToYear t : ℝ) + q) (k := 12) (by norm_num)
    (by rw [abs_of_nonneg (by linarith)]; norm_num; linarith)
  have : ∀ a b c : ℝ, rnd (a + q) - (a + b) = (rnd (a + q) - (a + q)) + (q - b) := by intros; ring
  rw [this _ _ 0]
  exact (abs_add_le _ _).trans (add_le_add (by simpa using e2) e1)

/-- C71: a time converted to the decimal year and back in double precision is recovered up to
20 microseconds, years 0 to 4094. -/
theorem C71_round_trip (t : ℝ) (h : 0 ≤ mjd2kToYear t) (h' : mjd2kToYear t < 4095) (hf : (firstDay : ℝ) ≤ t)
    (hm : t ≤ 500000000) : |toMjd2kF rnd (decimalYearF rnd t) - t| ≤ 20 / 86400000000 := by
  obtain ⟨a1, a2, -, -⟩ := float_year t hf hm
  obtain ⟨w1, w2⟩ := C71_within_year R t hf hm
  have e1 := float_fraction_err R t hf hm
  obtain ⟨f0, f1⟩ := float_fraction R t hf hm
  have acc := C71_accuracy R t h h' hf hm
  have hle : (yearLength (mjd2kToYear t) : ℝ) ≤ (daysPerYear (mjd2kToYear t) : ℝ) := by
    exact_mod_cast yearLength_le (mjd2kToYear t)
  have hL : (daysPerYear (mjd2kToYear t) : ℝ) = 366 ∨ (daysPerYear (mjd2kToYear t) : ℝ) = 365 := by
    rcases float_daysPerYear_cases (mjd2kToYear t) with ⟨-, h⟩ | ⟨-, h⟩ <;> rw [h] <;> norm_num
  have hL1 : (365 : ℝ) ≤ (daysPerYear (mjd2kToYear t) : ℝ) ∧ (daysPerYear (mjd2kToYear t) : ℝ) ≤ 366 := by
    rcases hL with h | h <;> rw [h] <;> norm_num
  have hx : mjd2kToDecimalYear t = (mjd2kToYear t : ℝ) +
      (t - (yearStart (mjd2kToYear t) : ℝ)) / (daysPerYear (mjd2kToYear t) : ℝ) := by
    have h1 := yearsPerDay_eq (K := ℝ) (mjd2kToYear t)
    have h2 : (daysPerYear (mjd2kToYear t) : ℝ) ≠ 0 := right_ne_zero_of_mul_eq_one h1
    unfold mjd2kToDecimalYear
    dsimp only
    rw [eq_div_of_mul_eq h2 h1]
    ring
  rw [hx] at acc
  have hys : |yearStart (mjd2kToYear t)| ≤ 800000 := by
    have := h
    have := h'
    generalize mjd2kToYear t = y at *
    unfold yearStart
    dsimp only
    rw [Int.tdiv_eq_ediv_of_nonneg (by omega), Int.tdiv_eq_ediv_of_nonneg (by omega),
      Int.tdiv_eq_ediv_of_nonneg (by omega), abs_le]
    split <;> constructor <;> omega
  have hys' : |(yearStart (mjd2kToYear t) : ℝ)| ≤ 800000 := by
    have : ((|yearStart (mjd2kToYear t)| : Int) : ℝ) ≤ ((800000 : Int) : ℝ) := Int.cast_le.mpr hys
    push_cast at this
    exact this
  generalize hD : decimalYearF rnd t = D at *
  rcases eq_or_lt_of_le w2 with hup | hlo
  · -- rounded up to the next year
    have hlen := C07_year_length (mjd2kToYear t) (by omega)
    have hex := (C71_year_start R (mjd2kToYear t + 1) (by omega) (by omega)).2
    push_cast at hex
    rw [hup, hex]
    have hs : ((yearStart (mjd2kToYear t + 1) : Int) : ℝ) = (yearStart (mjd2kToYear t) : ℝ) + (yearLength (mjd2kToYear t) : ℝ) := by
      have : yearStart (mjd2kToYear t + 1) = yearStart (mjd2kToYear t) + yearLength (mjd2kToYear t) := by omega
      rw [this]
      push_cast
      ring
    rw [hs, abs_of_nonneg (by linarith)]
    rw [hup] at acc
    obtain ⟨-, acc⟩ := abs_le.mp acc
    have hq : 1 - (t - (yearStart (mjd2kToYear t) : ℝ)) / (daysPerYear (mjd2kToYear t) : ℝ) ≤ 2 ^ (-42 : ℤ) + 2 ^ (-51 : ℤ) := by
      linarith
    have hq2 : (daysPerYear (mjd2kToYear t) : ℝ) - (t - (yearStart (mjd2kToYear t) : ℝ)) ≤
        (daysPerYear (mjd2kToYear t) : ℝ) * (2 ^ (-42 : ℤ) + 2 ^ (-51 : ℤ)) := by
      have := mul_le_mul_of_nonneg_left hq (show (0 : ℝ) ≤ (daysPerYear (mjd2kToYear t) : ℝ) by linarith)
      rw [mul_sub, mul_one, mul_div_cancel₀ _ (by linarith)] at this
      exact this
    have hq3 : (daysPerYear (mjd2kToYear t) : ℝ) * (2 ^ (-42 : ℤ) + 2 ^ (-51 : ℤ)) ≤ 366 * (2 ^ (-42 : ℤ) + 2 ^ (-51 : ℤ)) :=
      mul_le_mul_of_nonneg_right hL1.2 (by positivity)
    norm_num only at hq2 hq3 ⊢
    linarith
  · have hfl : ⌊D⌋ = mjd2kToYear t := by
      rw [Int.floor_eq_iff]
      exact ⟨w1, hlo⟩
    unfold toMjd2kF
    dsimp only
    rw [hfl]
    generalize (daysPerYear (mjd2kToYear t) : ℝ) = L at *
    generalize (yearStart (mjd2kToYear t) : ℝ) = ys at *
    generalize (mjd2kToYear t : ℝ) = y at *
    have g1 := R.err (x := D - y) (k := 0) (by norm_num) (by rw [abs_of_nonneg (by linarith)]; norm_num; linarith)
    have g2 : 0 ≤ rnd (D - y) := R.nonneg (by linarith)
    have g3 : rnd (D - y) ≤ 1 := R.le_of_le F64.one (by linarith)
    generalize rnd (D - y) = f at *
    have g4 : 0 ≤ f * L := mul_nonneg g2 (by linarith)
    have g5 : f * L ≤ 366 := by nlinarith
    have g6 := R.err (x := f * L) (k := 9) (by norm_num) (by rw [abs_of_nonneg g4]; norm_num; linarith)
    have g7 : 0 ≤ rnd (f * L) := R.nonneg g4
    have g8 : rnd (f * L) ≤ 366 := R.le_of_le (by simpa using F64.int (n := 366) (by norm_num)) g5
    generalize rnd (f * L) = z at *
    obtain ⟨s1, s2⟩ := abs_le.mp hys'
    have g9 := R.err (x := ys + z) (k := 20) (by norm_num) (by rw [abs_le]; constructor <;> norm_num <;> linarith)
    have hdL : L * ((t - ys) / L) = t - ys := by rw [mul_div_cancel₀ _ (by linarith)]
    have k1 : |f * L - (t - ys)| ≤ 366 * (2 ^ (-54 : ℤ) + (2 ^ (-42 : ℤ) + 2 ^ (-51 : ℤ))) := by
      have : f * L - (t - ys) = L * ((f - (D - y)) + (D - (y + (t - ys) / L))) := by
        linear_combination hdL
      rw [this, abs_mul, abs_of_nonneg (show 0 ≤ L by linarith)]
      refine mul_le_mul hL1.2 ?_ (abs_nonneg _) (by norm_num)
      exact (abs_add_le _ _).trans (add_le_add (by simpa using g1) acc)
    have : rnd (ys + z) - t = (rnd (ys + z) - (ys + z)) + ((z - f * L) + (f * L - (t - ys))) := by ring
    rw [this]
    refine (abs_add_le _ _).trans ((add_le_add g9 ((abs_add_le _ _).trans (add_le_add g6 k1))).trans ?_)
    norm_num

/-- C71: a time of the year 1999 (about 10^-13 seconds before its end) has the decimal year
2000 in double precision, and its date has 24 hours: the half-open intervals of the exact
functions (C07, C09) are closed ones in double precision. -/
theorem C71_rounds_up : (-(2 : ℝ) ^ (-60 : ℤ)) ∈ F64 ∧ mjd2kToYear (-(2 : ℝ) ^ (-60 : ℤ)) = 1999 ∧
    decimalYearF rnd (-(2 : ℝ) ^ (-60 : ℤ)) = 2000 ∧ dateF rnd (-(2 : ℝ) ^ (-60 : ℤ)) = (1999, 12, 31, 24) := by
  have hfl : ⌊(-(2 : ℝ) ^ (-60 : ℤ))⌋ = -1 := by
    rw [Int.floor_eq_iff]
    norm_num
  have hyr : mjd2kToYear (-(2 : ℝ) ^ (-60 : ℤ)) = 1999 := by
    unfold mjd2kToYear
    rw [hfl]
    decide
  have hfd : (firstDay : ℝ) ≤ -(2 : ℝ) ^ (-60 : ℤ) := by norm_num [firstDay]
  have hmx : (-(2 : ℝ) ^ (-60 : ℤ)) ≤ 500000000 := by norm_num
  refine ⟨F64.neg ⟨1, -60, by norm_num, by norm_num, by norm_num⟩, hyr, ?_, ?_⟩
  · obtain ⟨w1, w2⟩ := C71_within_year R _ hfd hmx
    have e1 := float_fraction_err R _ hfd hmx
    have f1 := (float_fraction R _ hfd hmx).2
    rw [hyr] at w1 w2 e1
    rw [show yearStart 1999 = -365 by decide, show daysPerYear 1999 = 365 by decide] at e1
    have hD := float_decimalYear R (-(2 : ℝ) ^ (-60 : ℤ))
    rw [hyr] at hD
    generalize yearFractionF rnd (-(2 : ℝ) ^ (-60 : ℤ)) = q at *
    have h2000 : (2000 : ℝ) ∈ F64 := by simpa using F64.int (n := 2000) (by norm_num)
    have hn := R.near ((1999 : Int) + q) 2000 h2000
    rw [← hD] at hn
    have hmem : decimalYearF rnd (-(2 : ℝ) ^ (-60 : ℤ)) ∈ F64 := by rw [hD]; exact R.mem _
    generalize decimalYearF rnd (-(2 : ℝ) ^ (-60 : ℤ)) = D at *
    norm_num only at w1 w2 hn e1 hD
    obtain ⟨e1, -⟩ := abs_le.mp e1
    have hx : 2000 - 2 ^ (-50 : ℤ) ≤ 1999 + q := by
      norm_num only
      linarith
    refine F64.eq_of_close (k := 10) hmem h2000 ?_ ?_ ?_
    · rw [abs_of_nonneg (by linarith)]; norm_num; linarith
    · norm_num
    · rw [abs_of_nonneg (show (0 : ℝ) ≤ 2000 - (1999 + q) by linarith)] at hn
      obtain ⟨n1, n2⟩ := abs_le.mp hn
      norm_num only at hx ⊢
      rw [abs_lt]
      constructor <;> linarith
  · unfold dateF
    dsimp only
    rw [hfl]
    have h1 : rnd (-(2 : ℝ) ^ (-60 : ℤ) - ((-1 : Int) : ℝ)) = 1 := by
      have hn := R.near (-(2 : ℝ) ^ (-60 : ℤ) - ((-1 : Int) : ℝ)) 1 F64.one
      have hm := R.mem (-(2 : ℝ) ^ (-60 : ℤ) - ((-1 : Int) : ℝ))
      generalize rnd (-(2 : ℝ) ^ (-60 : ℤ) - ((-1 : Int) : ℝ)) = z at *
      norm_num only at hn
      obtain ⟨n1, n2⟩ := abs_le.mp hn
      norm_num only at n1 n2
      refine F64.eq_of_close (k := -1) hm F64.one ?_ ?_ ?_
      · rw [abs_of_nonneg (by linarith)]; norm_num; linarith
      · norm_num
      · rw [abs_lt]
        norm_num only
        constructor <;> linarith
    have h24 : rnd (24 * 1) = 24 := by
      rw [mul_one]
      simpa using R.int (n := 24) (by norm_num)
    rw [h1, h24]
    refine Prod.ext (by decide) (Prod.ext (by decide) (Prod.ext (by decide) rfl))

/-- C71: apart from this end point the hours lie in their range. -/
theorem C71_hours (t : ℝ) : 0 ≤ (dateF rnd t).2.2.2 ∧ (dateF rnd t).2.2.2 ≤ 24 := by
  unfold dateF
  dsimp only
  have h0 := Int.floor_le t
  have h1 := Int.lt_floor_add_one t
  have r0 : 0 ≤ rnd (t - (⌊t⌋ : ℝ)) := R.nonneg (by linarith)
  have r1 : rnd (t - (⌊t⌋ : ℝ)) ≤ 1 := R.le_of_le F64.one (by linarith)
  refine ⟨R.nonneg (by linarith), R.le_of_le (by simpa using F64.int (n := 24) (by norm_num)) (by linarith)⟩

end

/-! ### Cases -/

/-- The hypotheses are met by a time of the year 2021 and some rounding. -/
example : ∃ rnd : ℝ → ℝ, Nearest rnd ∧ |toMjd2kF rnd (decimalYearF rnd (7777 + 1 / 4)) - (7777 + 1 / 4)| ≤ 20 / 86400000000 := by
  obtain ⟨rnd, R⟩ := Nearest.exists
  have hfl : ⌊(7777 + 1 / 4 : ℝ)⌋ = 7777 := by
    rw [Int.floor_eq_iff]
    norm_num
  have hy : mjd2kToYear (7777 + 1 / 4 : ℝ) = 2021 := by
    unfold mjd2kToYear
    rw [hfl]
    decide
  exact ⟨rnd, R, C71_round_trip R _ (by rw [hy]; norm_num) (by rw [hy]; norm_num) (by norm_num [firstDay]) (by norm_num)⟩

end Verif.Props
