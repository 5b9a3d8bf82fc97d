/-
C65: the decimal year of a `datetime` object against `mjd2000_to_decimal_year`.
-/
import Verif.Model.DateTime
import Verif.Props.Time

set_option linter.unusedSectionVars false

namespace Verif.Props

open Verif.Time Verif.Spec Verif.DateTime

/-- A civil date of the calendar of Spec/Calendar.lean with a time of the day: what the
constructor of `datetime` accepts for the years of the Gregorian calendar. -/
structure CivilTime (f : Fields) : Prop where
  month : 1 ≤ f.month ∧ f.month ≤ 12
  day : 1 ≤ f.day ∧ f.day ≤ monthLength f.year f.month
  hour : 0 ≤ f.hour ∧ f.hour < 24
  minute : 0 ≤ f.minute ∧ f.minute < 60
  second : 0 ≤ f.second ∧ f.second < 60
  microsecond : 0 ≤ f.microsecond ∧ f.microsecond < 1000000

theorem isLeap_iff (y : Int) (h : 1582 < y) : (isLeap y = true) ↔ leap y := by
  rw [leap_iff]
  unfold isLeap
  simp only [Bool.and_eq_true, beq_iff_eq, Bool.or_eq_true, bne_iff_ne]
  omega

/-- Place of the month in the year by the lengths of the months. -/
theorem daysBeforeMonth_succ (y m : Int) (h : 1582 < y) (h1 : 1 ≤ m) (h2 : m < 12) :
    daysBeforeMonth y (m + 1) = daysBeforeMonth y m + monthLength y m := by
  have hm : m = 1 ∨ m = 2 ∨ m = 3 ∨ m = 4 ∨ m = 5 ∨ m = 6 ∨ m = 7 ∨ m = 8 ∨ m = 9 ∨ m = 10 ∨
    m = 11 := by omega
  have := isLeap_iff y h
  unfold daysBeforeMonth monthLength
  rcases hm with rfl | rfl | rfl | rfl | rfl | rfl | rfl | rfl | rfl | rfl | rfl <;>
    by_cases hl : leap y <;> simp [hl, this] <;> (try (by_cases hb : isLeap y = true <;> simp_all))

theorem daysBeforeMonth_year (y : Int) (h : 1582 < y) :
    daysBeforeMonth y 12 + 31 = yearLength y := by
  have := isLeap_iff y h
  unfold daysBeforeMonth yearLength
  by_cases hl : leap y <;> simp_all <;> omega

/-- Day of the year of the computed dates. -/
theorem day_of_year (day : Int) (h : yearStart 1583 ≤ day) :
    1582 < yearOf day ∧ dayOf day ≤ monthLength (yearOf day) (monthOf day) ∧
      day = yearStart (yearOf day) + daysBeforeMonth (yearOf day) (monthOf day) + dayOf day - 1 := by
  induction day, h using Int.le_induction with
  | base => decide
  | succ n hn ih =>
    have h0 : yearStart 1583 = -152306 := by decide
    have hf : firstDay ≤ n := by unfold firstDay; omega
    obtain ⟨i1, i2, i3⟩ := ih
    have hx := C09_next_day n hf
    obtain ⟨v1, v2, v3, v4⟩ := C09_valid n hf
    unfold nextDate at hx
    simp only at hx
    rw [if_neg (by intro hc; injection hc; omega)] at hx
    split_ifs at hx with hc1 hc2
    · injection hx with e1 e2
      injection e2 with e2 e3
      rw [← e1, ← e2, ← e3]
      exact ⟨i1, by omega, by omega⟩
    · injection hx with e1 e2
      injection e2 with e2 e3
      rw [← e1, ← e2, ← e3, daysBeforeMonth_succ _ _ i1 v1 hc2]
      refine ⟨i1, ?_, by omega⟩
      unfold monthLength
      split_ifs <;> omega
    · injection hx with e1 e2
      injection e2 with e2 e3
      rw [← e1, ← e2, ← e3]
      have hm : monthOf n = 12 := by omega
      have hl := C07_year_length (yearOf n) (by omega)
      have hy := daysBeforeMonth_year (yearOf n) i1
      have h31 : monthLength (yearOf n) 12 = 31 := by unfold monthLength; norm_num
      have hz : daysBeforeMonth (yearOf n + 1) 1 = 0 := by unfold daysBeforeMonth; norm_num
      rw [hm] at i2 i3 hc1
      refine ⟨by omega, ?_, by rw [hz]; omega⟩
      unfold monthLength
      norm_num

theorem daysBeforeMonth_lt (y m m' : Int) (h : 1582 < y) (h1 : 1 ≤ m) (h2 : m < m') (h3 : m' ≤ 12) :
    daysBeforeMonth y m + monthLength y m ≤ daysBeforeMonth y m' := by
  induction m', (show m + 1 ≤ m' by omega) using Int.le_induction with
  | base => exact (daysBeforeMonth_succ y m h h1 (by omega)).ge
  | succ k hk ih =>
    have := ih (by omega) (by omega)
    have h4 := daysBeforeMonth_succ y k h (by omega) (by omega)
    have h5 : 0 ≤ monthLength y k := by unfold monthLength; split_ifs <;> omega
    omega

/-- Conversely the day counted from the year start has that date. -/
theorem date_of_day (y m d : Int) (h : 1582 < y) (hm : 1 ≤ m ∧ m ≤ 12)
    (hd : 1 ≤ d ∧ d ≤ monthLength y m) :
    yearStart 1583 ≤ yearStart y + daysBeforeMonth y m + d - 1 ∧
    yearOf (yearStart y + daysBeforeMonth y m + d - 1) = y ∧
      monthOf (yearStart y + daysBeforeMonth y m + d - 1) = m ∧
      dayOf (yearStart y + daysBeforeMonth y m + d - 1) = d := by
  have h0 : yearStart 1583 = -152306 := by decide
  have hb : 0 ≤ daysBeforeMonth y m ∧ daysBeforeMonth y m + monthLength y m ≤ yearLength y := by
    have h12 := daysBeforeMonth_year y h
    have h31 : monthLength y 12 = 31 := by unfold monthLength; norm_num
    have hz : daysBeforeMonth y 1 = 0 := by unfold daysBeforeMonth; norm_num
    constructor
    · by_cases hc : m = 1
      · rw [hc, hz]
      · have := daysBeforeMonth_lt y 1 m h le_rfl (by omega) hm.2
        have h5 : 0 ≤ monthLength y 1 := by unfold monthLength; split_ifs <;> omega
        omega
    · by_cases hc : m = 12
      · rw [hc]; omega
      · have := daysBeforeMonth_lt y m 12 h hm.1 (by omega) le_rfl
        omega
  have hs : yearStart 1583 ≤ yearStart y := by
    rcases (show 1583 = y ∨ 1583 < y by omega) with rfl | hlt
    · exact le_rfl
    · have := C07_year_start_mono 1583 y (by omega) hlt
      have h84 : yearStart (1583 + 1) = -151941 := by decide
      omega
  have hl := C07_year_length y (by omega)
  generalize hday : yearStart y + daysBeforeMonth y m + d - 1 = day
  have hd1 : yearStart 1583 ≤ day := by omega
  have hf : firstDay ≤ day := by unfold firstDay; omega
  have hy : yearOf day = y :=
    C07_year_unique day y hf (by omega) (by omega) (by omega)
  obtain ⟨v1, v2, v3, v4⟩ := C09_valid day hf
  obtain ⟨-, i2, i3⟩ := day_of_year day hd1
  rw [hy] at i2 i3
  have hmm : monthOf day = m := by
    rcases lt_trichotomy (monthOf day) m with hc | hc | hc
    · have := daysBeforeMonth_lt y _ _ h v1 hc hm.2
      omega
    · exact hc
    · have := daysBeforeMonth_lt y _ _ h hm.1 hc v2
      omega
  rw [hmm] at i3
  exact ⟨hd1, hy, hmm, by omega⟩

section
variable {K : Type} [Field K] [LinearOrder K] [IsStrictOrderedRing K] [FloorRing K]

/-- Hours of the day. -/
def hoursOf (f : Fields) : K :=
  (f.hour : K) + (f.minute : K) / 60 + (f.second : K) / 3600 + (f.microsecond : K) / 3600000000

/-- C65: for a `datetime` without time zone from 1583 on and before 9999, the decimal
year is the one `mjd2000_to_decimal_year` gives for the same instant, i.e., the MJD2000
with the same date and hours. -/
theorem C65_same_instant (f : Fields) (t : K) (h1 : 1583 ≤ f.year) (h2 : f.year ≤ 9998)
    (ht : (yearStart 1583 : K) ≤ t)
    (hd : mjd2kToDate t = (f.year, f.month, f.day, hoursOf f)) :
    datetimeToDecimalYear (.naive f) = .ok (mjd2kToDecimalYear t) := by
  have hday : yearStart 1583 ≤ ⌊t⌋ := Int.le_floor.mpr ht
  obtain ⟨-, -, i3⟩ := day_of_year ⌊t⌋ hday
  unfold mjd2kToDate at hd
  simp only [Prod.mk.injEq] at hd
  obtain ⟨e1, e2, e3, e4⟩ := hd
  rw [e1, e2, e3] at i3
  have n1 : newYear f.year = .ok ⟨f.year, 1, 1, 0, 0, 0, 0⟩ := if_pos ⟨by omega, by omega⟩
  have n2 : newYear (f.year + 1) = .ok ⟨f.year + 1, 1, 1, 0, 0, 0, 0⟩ :=
    if_pos ⟨by omega, by omega⟩
  simp only [datetimeToDecimalYear, n1, n2]
  show Except.ok _ = Except.ok _
  congr 1
  unfold mjd2kToDecimalYear mjd2kToYear
  simp only [e1]
  congr 1
  have hlen : micros ⟨f.year + 1, 1, 1, 0, 0, 0, 0⟩ - micros ⟨f.year, 1, 1, 0, 0, 0, 0⟩ =
      daysPerYear f.year * 86400000000 := by
    have hz : ∀ y, daysBeforeMonth y 1 = 0 := by intro y; unfold daysBeforeMonth; norm_num
    rw [daysPerYear_eq]
    unfold micros toOrdinal
    simp only [hz]
    by_cases hl : leap f.year
    · rw [if_pos hl]; rw [leap_iff] at hl; omega
    · rw [if_neg hl]; rw [leap_iff] at hl; omega
  have hel : micros f - micros ⟨f.year, 1, 1, 0, 0, 0, 0⟩ =
      (((⌊t⌋ - yearStart f.year) * 24 + f.hour) * 60 + f.minute) * 60 * 1000000 +
        f.second * 1000000 + f.microsecond := by
    have hz : ∀ y, daysBeforeMonth y 1 = 0 := by intro y; unfold daysBeforeMonth; norm_num
    unfold micros toOrdinal
    simp only [hz]
    omega
  have hh : (t : K) = (⌊t⌋ : K) + hoursOf f / 24 := by
    rw [← e4]; ring
  have hp := yearsPerDay_eq (K := K) f.year
  have hnz : (daysPerYear f.year : K) ≠ 0 := right_ne_zero_of_mul_eq_one hp
  have hy : (yearsPerDay f.year : K) = 1 / daysPerYear f.year := by field_simp; exact hp
  unfold totalSeconds
  rw [hlen, hel, hy]
  have ht2 : t - (yearStart f.year : K) = (⌊t⌋ : K) - yearStart f.year + hoursOf f / 24 := by
    linarith [hh]
  rw [ht2]
  unfold hoursOf
  push_cast
  field_simp
  ring

/-- C65: every date and time of the calendar from 1583 on has such an instant. -/
theorem C65_instant (f : Fields) (hf : CivilTime f) (h1 : 1583 ≤ f.year) :
    ∃ t : K, (yearStart 1583 : K) ≤ t ∧ mjd2kToDate t = (f.year, f.month, f.day, hoursOf f) := by
  obtain ⟨d1, d2, d3, d4⟩ := date_of_day f.year f.month f.day (by omega) hf.month hf.day
  have hh0 : (0 : K) ≤ hoursOf f := by
    have a1 : (0 : K) ≤ f.hour := by exact_mod_cast hf.hour.1
    have a2 : (0 : K) ≤ f.minute := by exact_mod_cast hf.minute.1
    have a3 : (0 : K) ≤ f.second := by exact_mod_cast hf.second.1
    have a4 : (0 : K) ≤ f.microsecond := by exact_mod_cast hf.microsecond.1
    unfold hoursOf
    positivity
  have hh1 : (hoursOf f : K) < 24 := by
    have a1 : (f.hour : K) ≤ 23 := by exact_mod_cast (show f.hour ≤ 23 by have := hf.hour.2; omega)
    have a2 : (f.minute : K) ≤ 59 := by
      exact_mod_cast (show f.minute ≤ 59 by have := hf.minute.2; omega)
    have a3 : (f.second : K) ≤ 59 := by
      exact_mod_cast (show f.second ≤ 59 by have := hf.second.2; omega)
    have a4 : (f.microsecond : K) ≤ 999999 := by
      exact_mod_cast (show f.microsecond ≤ 999999 by have := hf.microsecond.2; omega)
    unfold hoursOf
    linarith
  generalize yearStart f.year + daysBeforeMonth f.year f.month + f.day - 1 = n at *
  have hfl : ⌊(n : K) + hoursOf f / 24⌋ = n := by
    rw [Int.floor_eq_iff]
    constructor <;> linarith
  refine ⟨(n : K) + hoursOf f / 24, ?_, ?_⟩
  · have : (yearStart 1583 : K) ≤ n := by exact_mod_cast d1
    linarith
  · unfold mjd2kToDate
    simp only [hfl, d2, d3, d4]
    congr 3
    ring

/-- C65: the decimal year lies in the year of the object, and `decimal_year_to_mjd2000`
recovers the instant. -/
theorem C65_range (f : Fields) (hf : CivilTime f) (h1 : 1583 ≤ f.year) (h2 : f.year ≤ 9998) :
    ∃ dy : K, datetimeToDecimalYear (.naive f) = .ok dy ∧ (f.year : K) ≤ dy ∧ dy < f.year + 1 ∧
      mjd2kToDate (decimalYearToMjd2k dy) = (f.year, f.month, f.day, hoursOf f) := by
  obtain ⟨t, ht, hd⟩ := C65_instant (K := K) f hf h1
  have hft : (firstDay : K) ≤ t := by
    refine le_trans ?_ ht
    have : firstDay ≤ yearStart 1583 := by decide
    exact_mod_cast this
  refine ⟨_, C65_same_instant f t h1 h2 ht hd, ?_, ?_, by rw [C06_round_trip t hft]; exact hd⟩
  all_goals
    have hb := fraction_bounds t hft
    have hy : yearOf ⌊t⌋ = f.year := congrArg Prod.fst hd
    rw [hy] at hb
    unfold mjd2kToDecimalYear mjd2kToYear
    simp only [hy]
    linarith [hb.1, hb.2]

/-- What the constructor of `datetime` accepts, in any year: a date of the proleptic Gregorian
calendar and a time of the day. -/
structure GregorianTime (f : Fields) : Prop where
  month : 1 ≤ f.month ∧ f.month ≤ 12
  day : 1 ≤ f.day ∧ f.day ≤ 31
  day30 : f.month = 4 ∨ f.month = 6 ∨ f.month = 9 ∨ f.month = 11 → f.day ≤ 30
  february : f.month = 2 → f.day ≤ 29
  common : f.month = 2 → ¬ (4 ∣ f.year ∧ (100 ∣ f.year → 400 ∣ f.year)) → f.day ≤ 28
  hour : 0 ≤ f.hour ∧ f.hour < 24
  minute : 0 ≤ f.minute ∧ f.minute < 60
  second : 0 ≤ f.second ∧ f.second < 60
  microsecond : 0 ≤ f.microsecond ∧ f.microsecond < 1000000

/-- C65: in any year 1 to 9998 the decimal year lies in the year of the object. -/
theorem C65_any_year (f : Fields) (hf : GregorianTime f) (h1 : 1 ≤ f.year) (h2 : f.year ≤ 9998) :
    ∃ dy : K, datetimeToDecimalYear (.naive f) = .ok dy ∧ (f.year : K) ≤ dy ∧ dy < f.year + 1 := by
  have n1 : newYear f.year = .ok ⟨f.year, 1, 1, 0, 0, 0, 0⟩ := if_pos ⟨by omega, by omega⟩
  have n2 : newYear (f.year + 1) = .ok ⟨f.year + 1, 1, 1, 0, 0, 0, 0⟩ :=
    if_pos ⟨by omega, by omega⟩
  have hleap : isLeap f.year = true ↔ (4 ∣ f.year ∧ (100 ∣ f.year → 400 ∣ f.year)) := by
    unfold isLeap
    simp only [Bool.and_eq_true, beq_iff_eq, Bool.or_eq_true, bne_iff_ne]
    omega
  have hday : 1 ≤ daysBeforeMonth f.year f.month + f.day ∧
      daysBeforeMonth f.year f.month + f.day ≤ 365 + if isLeap f.year = true then 1 else 0 := by
    obtain ⟨a, b⟩ := hf.month
    have c := hf.day
    have c1 := hf.day30
    have c2 := hf.february
    have c3 := hf.common
    rw [← hleap] at c3
    have hm : f.month = 1 ∨ f.month = 2 ∨ f.month = 3 ∨ f.month = 4 ∨ f.month = 5 ∨ f.month = 6 ∨
      f.month = 7 ∨ f.month = 8 ∨ f.month = 9 ∨ f.month = 10 ∨ f.month = 11 ∨ f.month = 12 := by
      omega
    unfold daysBeforeMonth
    by_cases hl : isLeap f.year = true <;>
      rcases hm with h | h | h | h | h | h | h | h | h | h | h | h <;>
      simp only [h, hl] at c1 c2 c3 ⊢ <;> norm_num at c1 c2 c3 ⊢ <;> omega
  have hz : ∀ y, daysBeforeMonth y 1 = 0 := by intro y; unfold daysBeforeMonth; norm_num
  have htot : 0 < micros ⟨f.year + 1, 1, 1, 0, 0, 0, 0⟩ - micros ⟨f.year, 1, 1, 0, 0, 0, 0⟩ ∧
      micros f - micros ⟨f.year, 1, 1, 0, 0, 0, 0⟩ <
        micros ⟨f.year + 1, 1, 1, 0, 0, 0, 0⟩ - micros ⟨f.year, 1, 1, 0, 0, 0, 0⟩ := by
    have h3 := hf.hour
    have h4 := hf.minute
    have h5 := hf.second
    have h6 := hf.microsecond
    unfold micros toOrdinal
    simp only [hz]
    split_ifs at hday with hl
    · rw [hleap] at hl; omega
    · rw [hleap] at hl; omega
  have h0 : 0 ≤ micros f - micros ⟨f.year, 1, 1, 0, 0, 0, 0⟩ := by
    have h3 := hf.hour
    have h4 := hf.minute
    have h5 := hf.second
    have h6 := hf.microsecond
    unfold micros toOrdinal
    simp only [hz]
    omega
  refine ⟨(f.year : K) + totalSeconds f ⟨f.year, 1, 1, 0, 0, 0, 0⟩ /
      totalSeconds ⟨f.year + 1, 1, 1, 0, 0, 0, 0⟩ ⟨f.year, 1, 1, 0, 0, 0, 0⟩, ?_, ?_, ?_⟩
  · simp only [datetimeToDecimalYear, n1, n2]
    rfl
  all_goals
    unfold totalSeconds
    have p0 : (0 : K) ≤ ((micros f - micros ⟨f.year, 1, 1, 0, 0, 0, 0⟩ : Int) : K) := by
      exact_mod_cast h0
    have p1 : (0 : K) < ((micros ⟨f.year + 1, 1, 1, 0, 0, 0, 0⟩ -
        micros ⟨f.year, 1, 1, 0, 0, 0, 0⟩ : Int) : K) := by exact_mod_cast htot.1
    have p2 : ((micros f - micros ⟨f.year, 1, 1, 0, 0, 0, 0⟩ : Int) : K) <
      ((micros ⟨f.year + 1, 1, 1, 0, 0, 0, 0⟩ -
        micros ⟨f.year, 1, 1, 0, 0, 0, 0⟩ : Int) : K) := by exact_mod_cast htot.2
    rw [div_div_div_cancel_right₀ (by norm_num)]
  · have := div_nonneg p0 p1.le
    linarith
  · have := (div_lt_one p1).mpr p2
    linarith

/-- A leap day before the reform. -/
example : GregorianTime ⟨1200, 2, 29, 23, 59, 59, 999999⟩ := by
  constructor <;> simp

/-- C65: which arguments are refused: anything but a `datetime`, objects of the year
9999 (the start of the next year does not exist), and objects with a time zone. -/
theorem C65_rejects (f : Fields) (h1 : 1 ≤ f.year) (h2 : f.year ≤ 9999) :
    datetimeToDecimalYear (K := K) .other = .error .typeError ∧
      (datetimeToDecimalYear (K := K) (.naive f) = .error .valueError ↔ f.year = 9999) ∧
      (datetimeToDecimalYear (K := K) (.naive f) ≠ .error .typeError) ∧
      (datetimeToDecimalYear (K := K) (.aware f) =
        .error (if f.year = 9999 then .valueError else .typeError)) := by
  have e1 : newYear f.year = .ok ⟨f.year, 1, 1, 0, 0, 0, 0⟩ := if_pos ⟨h1, h2⟩
  simp only [datetimeToDecimalYear, e1]
  by_cases h : f.year = 9999
  · have e2 : newYear (f.year + 1) = .error .valueError := if_neg (by omega)
    rw [if_pos h]
    simp only [e2]
    refine ⟨trivial, ⟨fun _ => h, fun _ => rfl⟩, fun hc => ?_, rfl⟩
    injection hc with hc
    exact absurd hc (by decide)
  · have e2 : newYear (f.year + 1) = .ok ⟨f.year + 1, 1, 1, 0, 0, 0, 0⟩ :=
      if_pos ⟨by omega, by omega⟩
    rw [if_neg h]
    simp only [e2]
    exact ⟨trivial, ⟨fun hc => (nomatch hc), fun hc => absurd hc h⟩, fun hc => (nomatch hc), rfl⟩

end

/-- C65 fails before 1583, where `mjd2000_to_decimal_year` uses the Julian calendar and
`datetime` the Gregorian one: 1500-12-31 (and also 1582-10-15, the first Gregorian day). -/
theorem C65_julian :
    (∃ t : ℚ, mjd2kToDate t = (1500, 12, 31, hoursOf ⟨1500, 12, 31, 0, 0, 0, 0⟩) ∧
      mjd2kToDecimalYear t = 1500 + 365 / 366 ∧
      datetimeToDecimalYear (.naive ⟨1500, 12, 31, 0, 0, 0, 0⟩) = .ok (1500 + 364 / 365 : ℚ)) ∧
    (∃ t : ℚ, mjd2kToDate t = (1582, 10, 15, hoursOf ⟨1582, 10, 15, 0, 0, 0, 0⟩) ∧
      mjd2kToDecimalYear t = 1582 + 277 / 365 ∧
      datetimeToDecimalYear (.naive ⟨1582, 10, 15, 0, 0, 0, 0⟩) = .ok (1582 + 287 / 365 : ℚ)) := by
  refine ⟨⟨-182247, ?_⟩, ⟨-152384, ?_⟩⟩ <;> decide +kernel

/-- Leap day of the year 2000 at 06:30:15.5: 59 full days and 23415.5 s. -/
example : CivilTime ⟨2000, 2, 29, 6, 30, 15, 500000⟩ ∧
    datetimeToDecimalYear (.naive ⟨2000, 2, 29, 6, 30, 15, 500000⟩) =
      .ok (2000 + (59 * 86400 + 23415 + 1 / 2) / (366 * 86400) : ℚ) :=
  ⟨⟨by decide, by decide, by decide, by decide, by decide, by decide⟩, by decide +kernel⟩

end Verif.Props
