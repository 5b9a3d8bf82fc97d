/-
C06 - C09: decimal years and calendar dates.
-/
import Verif.Lemmas.Time
import Mathlib.Tactic.FieldSimp
import Mathlib.Tactic.NormNum
import Mathlib.Data.Rat.Floor
import Mathlib.Algebra.Order.Archimedean.Basic

set_option linter.unusedSectionVars false

namespace Verif.Props

open Verif.Time Verif.Spec

/-- C07: consecutive year starts differ by the length of the civil year (355 days
for 1582). -/
theorem C07_year_length (y : Int) (hy : -4799 ≤ y) :
    yearStart (y + 1) - yearStart y = yearLength y := by
  rw [yearStart_eq y hy, yearStart_eq (y + 1) (by omega)]
  unfold yearLength
  have hJ := SJ_len (y + 4715)
  have hG := SG_len (y + 4715)
  rw [show y + 1 + 4715 = y + 4715 + 1 by ring]
  by_cases h1 : y = 1582
  · subst h1; decide
  · rw [if_neg h1]
    by_cases h2 : 1582 < y
    · rw [if_pos h2, if_pos (by omega)]
      by_cases hl : leap y
      · rw [if_pos hl]; rw [leap_iff] at hl
        rw [if_pos (by omega)] at hG; omega
      · rw [if_neg hl]; rw [leap_iff] at hl
        rw [if_neg (by omega)] at hG; omega
    · rw [if_neg h2, if_neg (by omega)]
      by_cases hl : leap y
      · rw [if_pos hl]; rw [leap_iff] at hl
        rw [if_pos (by omega)] at hJ; omega
      · rw [if_neg hl]; rw [leap_iff] at hl
        rw [if_neg (by omega)] at hJ; omega

/-- The year 2000 starts at MJD2000 = 0. -/
theorem C07_epoch : yearStart 2000 = 0 := by decide

/-- C07: the year computed for a day contains that day. -/
theorem C07_year_bracket (day : Int) (h : firstDay ≤ day) :
    yearStart (yearOf day) ≤ day ∧ day < yearStart (yearOf day + 1) := by
  obtain ⟨q, n, hq, hn, hy, -, -, hcase⟩ := decomp day h
  have hy1 : -4799 ≤ yearOf day := by rw [hy]; unfold yQ; split <;> omega
  rw [yearStart_eq _ hy1, yearStart_eq _ (by omega), hy]
  unfold yQ
  have hJ1 := SJ_len q
  have hG1 := SG_len q
  have hJ0 := SJ_len (q - 1)
  have hG0 := SG_len (q - 1)
  rw [show q - 1 + 1 = q by ring] at hJ0 hG0
  have hfirst : SJ 6297 = 2299979 := by decide
  have hfirst2 : SJ 6298 = 2300344 := by decide
  have hfirstG : SG 6298 = 2300296 := by decide
  have hmonoJ : ∀ a b, a < b → SJ a < SJ b := fun a b hab => SJ_mono hab
  have hmonoG : ∀ a b, a < b → SG a < SG b := fun a b hab => SG_mono hab
  rcases hcase with ⟨h1, h2, h3⟩ | ⟨h1, h2, h3⟩
  · -- Julian
    have hq2 : q ≤ 6298 := by
      by_contra hc
      have := SJ_mono.monotone (show (6299 : Int) ≤ q by omega)
      have e : SJ 6299 = 2300709 := by decide
      omega
    by_cases h306 : 306 ≤ n
    · rw [if_pos h306]
      have hq3 : q ≤ 6297 := by
        by_contra hc
        have : q = 6298 := by omega
        subst this; omega
      rw [if_neg (by omega), show q - 4716 + 1 + 4715 = q by ring,
        show q - 4716 + 1 + 1 + 4715 = q + 1 by ring]
      by_cases hlast : q = 6297
      · subst hlast
        rw [if_pos (by omega)]
        have e : SG (6297 + 1) = 2300296 := by decide
        omega
      · rw [if_neg (by omega)]
        split at hJ1 <;> omega
    · rw [if_neg h306, show q - 4716 + 0 + 4715 = q - 1 by ring,
        show q - 4716 + 0 + 1 + 4715 = q by ring, if_neg (by omega)]
      by_cases hlast : q = 6298
      · subst hlast
        rw [if_pos (by omega)]
        split at hJ0 <;> omega
      · rw [if_neg (by omega)]
        split at hJ0 <;> omega
  · have hq2 : 6298 ≤ q := by
      by_contra hc
      have := SG_mono.monotone (show q + 1 ≤ (6298 : Int) by omega)
      omega
    by_cases h306 : 306 ≤ n
    · rw [if_pos h306]
      rw [if_pos (by omega), show q - 4716 + 1 + 4715 = q by ring,
        show q - 4716 + 1 + 1 + 4715 = q + 1 by ring, if_pos (by omega)]
      split at hG1 <;> omega
    · rw [if_neg h306, show q - 4716 + 0 + 4715 = q - 1 by ring,
        show q - 4716 + 0 + 1 + 4715 = q by ring]
      by_cases hf : q = 6298
      · subst hf
        rw [if_neg (by omega), if_pos (by omega)]
        split at hJ0 <;> omega
      · rw [if_pos (by omega), if_pos (by omega)]
        split at hG0 <;> omega

theorem yearLength_pos (y : Int) : 355 ≤ yearLength y := by
  unfold yearLength; split_ifs <;> omega

/-- C07: later years start later. -/
theorem C07_year_start_mono (y1 y2 : Int) (h1 : -4799 ≤ y1) (h : y1 < y2) :
    yearStart (y1 + 1) ≤ yearStart y2 := by
  obtain ⟨k, rfl⟩ : ∃ k : Nat, y2 = y1 + 1 + k := ⟨(y2 - y1 - 1).toNat, by omega⟩
  clear h
  induction k with
  | zero => simp
  | succ k ih =>
    have := C07_year_length (y1 + 1 + k) (by omega)
    have hp := yearLength_pos (y1 + 1 + k)
    have e : y1 + 1 + ((k + 1 : Nat) : Int) = y1 + 1 + k + 1 := by push_cast; ring
    rw [e]; omega

/-- C07: it is the only such year. -/
theorem C07_year_unique (day y : Int) (h : firstDay ≤ day) (hy : -4799 ≤ y)
    (h1 : yearStart y ≤ day) (h2 : day < yearStart (y + 1)) : yearOf day = y := by
  obtain ⟨b1, b2⟩ := C07_year_bracket day h
  obtain ⟨q, n, hq, hn, hyq, -, -, -⟩ := decomp day h
  have hy1 : -4799 ≤ yearOf day := by rw [hyq]; unfold yQ; split <;> omega
  rcases lt_trichotomy (yearOf day) y with hlt | heq | hgt
  · have := C07_year_start_mono _ _ hy1 hlt; omega
  · exact heq
  · have := C07_year_start_mono _ _ hy hgt; omega

/-- The day count of a civil year as the code has it: right but for 1582. -/
theorem daysPerYear_eq (y : Int) : daysPerYear y = if leap y then 366 else 365 := by
  have h : isLeapYear y = true ↔ leap y := by
    rw [leap_iff]
    unfold isLeapYear
    have e4 : y.tmod 4 = 0 ↔ y % 4 = 0 := by
      rw [← Int.dvd_iff_tmod_eq_zero, ← Int.dvd_iff_emod_eq_zero]
    have e100 : y.tmod 100 = 0 ↔ y % 100 = 0 := by
      rw [← Int.dvd_iff_tmod_eq_zero, ← Int.dvd_iff_emod_eq_zero]
    have e400 : y.tmod 400 = 0 ↔ y % 400 = 0 := by
      rw [← Int.dvd_iff_tmod_eq_zero, ← Int.dvd_iff_emod_eq_zero]
    simp only [Bool.and_eq_true, beq_iff_eq, Bool.or_eq_true, bne_iff_ne, ne_eq, decide_eq_true_eq,
      e4, e100, e400]
    tauto
  unfold daysPerYear
  by_cases hl : leap y
  · rw [if_pos (h.mpr hl), if_pos hl]; rfl
  · rw [if_neg (fun hc => hl (h.mp hc)), if_neg hl]; rfl

theorem yearLength_le (y : Int) : yearLength y ≤ daysPerYear y := by
  rw [daysPerYear_eq]
  unfold yearLength
  by_cases h : y = 1582
  · subst h
    have : ¬ leap 1582 := by decide
    rw [if_neg this]; simp
  · simp [h]

/-- C09: day 0 is 2000-01-01. -/
theorem C09_epoch : (yearOf 0, monthOf 0, dayOf 0) = (2000, 1, 1) := by decide

/-- C09: the next day has the next civil date. -/
theorem C09_next_day (day : Int) (h : firstDay ≤ day) :
    nextDate (yearOf day, monthOf day, dayOf day) =
      (yearOf (day + 1), monthOf (day + 1), dayOf (day + 1)) := by
  obtain ⟨q, n, hq, hn, hy, hm, hd, hcase⟩ := decomp day h
  obtain ⟨q', n', hq', hn', hy', hm', hd', hcase'⟩ := decomp (day + 1) (by omega)
  by_cases hsw : day + 2451545 = 2299160
  · -- 1582-10-04
    have : day = -152385 := by omega
    subst this
    decide
  rw [hy, hm, hd, hy', hm', hd']
  rcases hcase with ⟨h1, h2, h3⟩ | ⟨h1, h2, h3⟩
  · rcases hcase' with ⟨h1', h2', h3'⟩ | ⟨h1', h2', h3'⟩
    swap
    · omega
    have hq2 : q ≤ 6298 := by
      by_contra hc
      have := SJ_mono.monotone (show (6299 : Int) ≤ q by omega)
      have e : SJ 6299 = 2300709 := by decide
      omega
    have hq3 : q = 6298 → n < 217 := by
      intro hc; subst hc
      have e : SJ 6298 = 2300344 := by decide
      omega
    have hlen := SJ_len q
    rcases consecutive SJ SJ_mono q n q' n' hn hn' h3 h3' (by omega) with ⟨rfl, rfl⟩ | ⟨rfl, rfl, hn2⟩
    · apply step_same
      · exact hn
      · split at hlen <;> omega
      · intro h364
        rw [leap_iff]
        split at hlen <;> omega
      · omega
    · apply step_next
      rw [leap_iff]
      split at hlen <;> omega
  · rcases hcase' with ⟨h1', h2', h3'⟩ | ⟨h1', h2', h3'⟩
    · omega
    have hq2 : 6298 ≤ q := by
      by_contra hc
      have := SG_mono.monotone (show q + 1 ≤ (6298 : Int) by omega)
      have e : SG 6298 = 2300296 := by decide
      omega
    have hq3 : q = 6298 → 217 < n := by
      intro hc; subst hc
      have e : SG 6298 = 2300296 := by decide
      omega
    have hlen := SG_len q
    rcases consecutive SG SG_mono q n q' n' hn hn' h3 h3' (by omega) with ⟨rfl, rfl⟩ | ⟨rfl, rfl, hn2⟩
    · apply step_same
      · exact hn
      · split at hlen <;> omega
      · intro h364
        rw [leap_iff]
        split at hlen <;> omega
      · omega
    · apply step_next
      rw [leap_iff]
      split at hlen <;> omega

/-- C09: the dates are valid civil dates. -/
theorem C09_valid (day : Int) (h : firstDay ≤ day) :
    1 ≤ monthOf day ∧ monthOf day ≤ 12 ∧ 1 ≤ dayOf day ∧ dayOf day ≤ 31 := by
  obtain ⟨q, n, hq, hn, hy, hm, hd, hcase⟩ := decomp day h
  have hlJ := SJ_len q
  have hlG := SG_len q
  have hn2 : n ≤ 365 := by
    rcases hcase with ⟨h1, h2, h3⟩ | ⟨h1, h2, h3⟩
    · split at hlJ <;> omega
    · split at hlG <;> omega
  rw [hm, hd]
  unfold mQ dQ
  refine ⟨?_, ?_, ?_, ?_⟩ <;> (try split) <;> omega

/-- C09 in closed form: the date of any day after 2000-01-01 is reached by counting
calendar days. -/
theorem C09_iterate (k : Nat) :
    (yearOf k, monthOf k, dayOf k) = nextDate^[k] (2000, 1, 1) := by
  induction k with
  | zero => exact C09_epoch
  | succ k ih =>
    rw [Function.iterate_succ_apply', ← ih, C09_next_day k (by unfold firstDay; omega)]
    push_cast; rfl

/-- All the intermediate `int` values of time_conversion.h lines 44-52 and 90-91. -/
def intermediates (day : Int) : List Int :=
  let d := day + 2451545
  let c := (4 * d + 274277).tdiv 146097
  let y := yearOf day + 4799
  [d, d + 1401, 4 * d, 4 * d + 274277, c, c * 3, (c * 3).tdiv 4, eVal day, hVal day, monthOf day,
    dayOf day, yearOf day, y, 365 * y, y.tdiv 4, 365 * y + y.tdiv 4, 365 * y + y.tdiv 4 - 2483321,
    yearStart (yearOf day)]

/-- C07, no overflow of 32-bit integers up to 500 million days. -/
theorem C07_no_overflow (day : Int) (h : firstDay ≤ day) (h' : day ≤ 500000000) :
    ∀ x ∈ intermediates day, -2147483648 ≤ x ∧ x ≤ 2147483647 := by
  obtain ⟨q, n, hq, hn, hy, hm, hd, hcase⟩ := decomp day h
  obtain ⟨v1, v2, v3, v4⟩ := C09_valid day h
  obtain ⟨b1, b2⟩ := C07_year_bracket day h
  have h0 : -2452946 ≤ day := h
  have hyq : -4716 ≤ yearOf day ∧ yearOf day ≤ 1400000 := by
    rw [hy]; unfold yQ
    have : q ≤ 1390000 := by
      by_contra hc
      rcases hcase with ⟨h1, h2, h3⟩ | ⟨h1, h2, h3⟩
      · unfold SJ at h2; omega
      · unfold SG at h2; omega
    split <;> omega
  have ht : ∀ a : Int, ∀ m : Int, 0 < m → 0 ≤ a → a.tdiv m ≤ a ∧ 0 ≤ a.tdiv m := by
    intro a m hm ha
    rw [Int.tdiv_eq_ediv_of_nonneg ha]
    exact ⟨Int.ediv_le_self _ ha, Int.ediv_nonneg ha (by omega)⟩
  have ht4 := ht (yearOf day + 4799) 4 (by omega) (by omega)
  have hc : -1 ≤ (4 * (day + 2451545) + 274277).tdiv 146097 ∧
      (4 * (day + 2451545) + 274277).tdiv 146097 ≤ 20000 := by
    rw [Int.tdiv_eq_ediv_of_nonneg (by omega)]; omega
  have hc3 : -3 ≤ ((4 * (day + 2451545) + 274277).tdiv 146097 * 3).tdiv 4 ∧
      ((4 * (day + 2451545) + 274277).tdiv 146097 * 3).tdiv 4 ≤ 60000 := by
    rw [Int.tdiv_eq_ediv_of_nonneg (by rw [Int.tdiv_eq_ediv_of_nonneg (by omega)]; omega)]; omega
  have he : 0 ≤ eVal day ∧ eVal day ≤ 2147483647 := by
    unfold eVal; simp only []; split <;> omega
  have hh : 0 ≤ hVal day ∧ hVal day ≤ 2000 := by
    unfold hVal
    rw [Int.tmod_eq_emod_of_nonneg he.1, Int.tdiv_eq_ediv_of_nonneg (by omega)]; omega
  intro x hx
  simp only [intermediates, List.mem_cons, List.not_mem_nil, or_false] at hx
  rcases hx with rfl | rfl | rfl | rfl | rfl | rfl | rfl | rfl | rfl | rfl | rfl | rfl | rfl | rfl |
    rfl | rfl | rfl | rfl
  all_goals first
    | omega
    | (rw [yearStart_eq _ (by omega)]
       unfold SG SJ
       split <;> omega)

section real
variable {K : Type} [Field K] [LinearOrder K] [IsStrictOrderedRing K] [FloorRing K]

theorem yearsPerDay_eq (y : Int) : (yearsPerDay y : K) * (daysPerYear y : K) = 1 := by
  unfold yearsPerDay daysPerYear
  split <;> norm_num

theorem yearsPerDay_pos (y : Int) : (0 : K) < yearsPerDay y := by
  unfold yearsPerDay; split <;> norm_num

/-- The fraction of the year lies in [0,1). -/
theorem fraction_bounds (t : K) (h : (firstDay : K) ≤ t) :
    0 ≤ (t - (yearStart (yearOf ⌊t⌋) : K)) * yearsPerDay (yearOf ⌊t⌋) ∧
    (t - (yearStart (yearOf ⌊t⌋) : K)) * (yearsPerDay (yearOf ⌊t⌋) : K) < 1 := by
  have hd : firstDay ≤ ⌊t⌋ := Int.le_floor.mpr h
  obtain ⟨b1, b2⟩ := C07_year_bracket ⌊t⌋ hd
  obtain ⟨q, n, hq, hn, hyq, -, -, -⟩ := decomp ⌊t⌋ hd
  have hy1 : -4799 ≤ yearOf ⌊t⌋ := by rw [hyq]; unfold yQ; split <;> omega
  have hlen := C07_year_length _ hy1
  have hle := yearLength_le (yearOf ⌊t⌋)
  generalize yearOf ⌊t⌋ = y at *
  have hp : (0 : K) < yearsPerDay y := yearsPerDay_pos y
  have hfl : ((⌊t⌋ : Int) : K) ≤ t := Int.floor_le t
  have hlt : t < (⌊t⌋ : K) + 1 := Int.lt_floor_add_one t
  have c1 : (yearStart y : K) ≤ (⌊t⌋ : K) := by exact_mod_cast b1
  have c2 : (⌊t⌋ : K) + 1 ≤ (yearStart y : K) + (daysPerYear y : K) := by
    have : ⌊t⌋ + 1 ≤ yearStart y + daysPerYear y := by omega
    exact_mod_cast this
  constructor
  · exact mul_nonneg (by linarith) hp.le
  · have := yearsPerDay_eq (K := K) y
    calc (t - (yearStart y : K)) * yearsPerDay y < (daysPerYear y : K) * yearsPerDay y := by
          apply mul_lt_mul_of_pos_right _ hp; linarith
      _ = 1 := by rw [mul_comm]; exact this

/-- C06: `decimal_year_to_mjd2000` undoes `mjd2000_to_decimal_year`. -/
theorem C06_round_trip (t : K) (h : (firstDay : K) ≤ t) :
    decimalYearToMjd2k (mjd2kToDecimalYear t) = t := by
  obtain ⟨f0, f1⟩ := fraction_bounds t h
  have hfloor : ⌊(mjd2kToDecimalYear t : K)⌋ = yearOf ⌊t⌋ := by
    unfold mjd2kToDecimalYear mjd2kToYear
    rw [Int.floor_eq_iff]
    constructor <;> simp only [] <;> linarith
  unfold decimalYearToMjd2k
  simp only [hfloor]
  unfold mjd2kToDecimalYear mjd2kToYear
  have := yearsPerDay_eq (K := K) (yearOf ⌊t⌋)
  simp only []
  rw [add_sub_cancel_left, mul_assoc, this]
  ring

/-- C06: not-a-number and infinities pass through both conversions. -/
theorem C06_non_finite (junk : Int) (x : X K) (hx : ∀ a, x ≠ .fin a) :
    mjd2kToDecimalYearX junk x = x ∧ decimalYearToMjd2kX x = x := by
  have hp : (0 : K) < yearsPerDay (yearOf junk) := yearsPerDay_pos _
  cases x with
  | fin a => exact absurd rfl (hx a)
  | nan => simp [mjd2kToDecimalYearX, decimalYearToMjd2kX, X.add, X.mul, X.sub, X.neg]
  | ninf =>
    simp [mjd2kToDecimalYearX, decimalYearToMjd2kX, X.add, X.mul, X.sub, X.neg, X.infSign, hp,
      not_lt.mpr hp.le, hp.ne']
  | pinf =>
    simp [mjd2kToDecimalYearX, decimalYearToMjd2kX, X.add, X.mul, X.sub, X.neg, X.infSign, hp,
      not_lt.mpr hp.le, hp.ne']

/-- C06 on doubles of any kind. -/
theorem C06_round_trip_any (junk : Int) (x : X K) (h : ∀ t, x = .fin t → (firstDay : K) ≤ t) :
    decimalYearToMjd2kX (mjd2kToDecimalYearX junk x) = x := by
  cases x with
  | fin t => simp [mjd2kToDecimalYearX, decimalYearToMjd2kX, C06_round_trip t (h t rfl)]
  | nan => rw [(C06_non_finite junk .nan (by simp)).1]; rfl
  | ninf => rw [(C06_non_finite junk .ninf (by simp)).1]; rfl
  | pinf => rw [(C06_non_finite junk .pinf (by simp)).1]; rfl

/-- C06: the year fraction is the fractional part of the decimal year. -/
theorem C06_year_fraction (t : K) (h : (firstDay : K) ≤ t) :
    mjd2kToYearFraction t = mjd2kToDecimalYear t - (⌊(mjd2kToDecimalYear t : K)⌋ : K) := by
  obtain ⟨f0, f1⟩ := fraction_bounds t h
  have hfloor : ⌊(mjd2kToDecimalYear t : K)⌋ = yearOf ⌊t⌋ := by
    unfold mjd2kToDecimalYear mjd2kToYear
    rw [Int.floor_eq_iff]
    constructor <;> simp only [] <;> linarith
  rw [hfloor]
  unfold mjd2kToYearFraction mjd2kToDecimalYear mjd2kToYear
  simp only []; ring

/-- C06 for the simplified conversions, which are inverse for any time. -/
theorem C06_simple (t dy : K) :
    decimalYearToMjd2000Simple (mjd2000ToDecimalYearSimple t) = t ∧
    mjd2000ToDecimalYearSimple (decimalYearToMjd2000Simple dy) = dy ∧
    mjd2000ToYearFractionSimple t =
      mjd2000ToDecimalYearSimple t - (⌊mjd2000ToDecimalYearSimple t⌋ : K) := by
  unfold decimalYearToMjd2000Simple mjd2000ToDecimalYearSimple mjd2000ToYearFractionSimple
  refine ⟨by field_simp; ring, by field_simp; ring, ?_⟩
  have : ⌊(2000 : K) + t / (36525 / 100)⌋ = 2000 + ⌊t / (36525 / 100)⌋ := by
    have := Int.floor_intCast_add (2000 : Int) (t / (36525 / 100) : K)
    exact_mod_cast this
  rw [this]; push_cast; ring

/-- C07: the decimal year is strictly increasing in time. -/
theorem C07_decimal_year_strict_mono (t1 t2 : K) (h : (firstDay : K) ≤ t1) (hlt : t1 < t2) :
    mjd2kToDecimalYear t1 < mjd2kToDecimalYear t2 := by
  have h2 : (firstDay : K) ≤ t2 := le_trans h hlt.le
  obtain ⟨f0, f1⟩ := fraction_bounds t1 h
  obtain ⟨g0, g1⟩ := fraction_bounds t2 h2
  have hd1 : firstDay ≤ ⌊t1⌋ := Int.le_floor.mpr h
  have hd2 : firstDay ≤ ⌊t2⌋ := Int.le_floor.mpr h2
  have hfl : ⌊t1⌋ ≤ ⌊t2⌋ := Int.floor_le_floor hlt.le
  obtain ⟨a1, a2⟩ := C07_year_bracket _ hd1
  obtain ⟨b1, b2⟩ := C07_year_bracket _ hd2
  unfold mjd2kToDecimalYear mjd2kToYear
  simp only []
  rcases lt_trichotomy (yearOf ⌊t1⌋) (yearOf ⌊t2⌋) with hy | hy | hy
  · have : (yearOf ⌊t1⌋ : K) + 1 ≤ (yearOf ⌊t2⌋ : K) := by exact_mod_cast hy
    linarith
  · rw [hy]
    have := mul_lt_mul_of_pos_right (sub_lt_sub_right hlt (yearStart (yearOf ⌊t2⌋) : K))
      (yearsPerDay_pos (K := K) (yearOf ⌊t2⌋))
    linarith
  · exfalso
    obtain ⟨q, n, hq, hn, hyq, -, -, -⟩ := decomp ⌊t2⌋ hd2
    have hy1 : -4799 ≤ yearOf ⌊t2⌋ := by rw [hyq]; unfold yQ; split <;> omega
    have := C07_year_start_mono _ _ hy1 hy
    omega

/-- C08 is false of the code: the tail of 1582 overlaps with the start of 1583
(the year is 355 days long but gets 365 days). -/
theorem C08_not_monotone :
    ∃ y1 y2 : ℚ, y1 < y2 ∧ (decimalYearToMjd2k y2 : ℚ) < decimalYearToMjd2k y1 := by
  refine ⟨1582 + 364 / 365, 1583, by norm_num, ?_⟩
  have h1 : ⌊(1582 + 364 / 365 : ℚ)⌋ = 1582 := by rw [Int.floor_eq_iff]; norm_num
  have h2 : ⌊(1583 : ℚ)⌋ = 1583 := by rw [Int.floor_eq_iff]; norm_num
  unfold decimalYearToMjd2k
  rw [h1, h2]
  have e1 : yearStart 1582 = -152661 := by decide
  have e2 : yearStart 1583 = -152306 := by decide
  have e3 : daysPerYear 1582 = 365 := by decide
  have e4 : daysPerYear 1583 = 365 := by decide
  simp only [e1, e2, e3, e4]
  norm_num

/-- C08, the true part: `decimal_year_to_mjd2000` is strictly increasing unless the
first argument lies in the last ten 365ths of 1582 and the second one in a later
year.  Missing of the full claim: exactly that exception (see `C08_not_monotone`). -/
theorem C08_monotone_partial (y1 y2 : K) (h1 : -4799 ≤ y1) (hlt : y1 < y2)
    (hx : ¬ (1582 + 355 / 365 ≤ y1 ∧ y1 < 1583 ∧ 1583 ≤ y2)) :
    decimalYearToMjd2k y1 < decimalYearToMjd2k y2 := by
  have hfl : ⌊y1⌋ ≤ ⌊y2⌋ := Int.floor_le_floor hlt.le
  have hf1 : -4799 ≤ ⌊y1⌋ := Int.le_floor.mpr (by exact_mod_cast h1)
  have a1 : ((⌊y1⌋ : Int) : K) ≤ y1 := Int.floor_le y1
  have a2 : y1 < (⌊y1⌋ : K) + 1 := Int.lt_floor_add_one y1
  have b1 : ((⌊y2⌋ : Int) : K) ≤ y2 := Int.floor_le y2
  have dpos : ∀ y : Int, (0 : K) < (daysPerYear y : K) := by
    intro y
    have : 0 < daysPerYear y := by rw [daysPerYear_eq]; split <;> omega
    exact_mod_cast this
  unfold decimalYearToMjd2k
  simp only []
  rcases lt_or_eq_of_le hfl with hy | hy
  · have hlen := C07_year_length ⌊y1⌋ hf1
    have hst := C07_year_start_mono _ _ hf1 hy
    have c1 : (yearStart ⌊y1⌋ : K) + (yearLength ⌊y1⌋ : K) ≤ (yearStart ⌊y2⌋ : K) := by
      have : yearStart ⌊y1⌋ + yearLength ⌊y1⌋ ≤ yearStart ⌊y2⌋ := by omega
      exact_mod_cast this
    have c2 : (0 : K) ≤ (y2 - (⌊y2⌋ : K)) * (daysPerYear ⌊y2⌋ : K) :=
      mul_nonneg (by linarith) (dpos _).le
    have c3 : (y1 - (⌊y1⌋ : K)) * (daysPerYear ⌊y1⌋ : K) < (yearLength ⌊y1⌋ : K) := by
      by_cases h1582 : ⌊y1⌋ = 1582
      · rw [h1582] at a1 a2 hy ⊢
        have e1 : yearLength 1582 = 355 := by decide
        have e2 : daysPerYear 1582 = 365 := by decide
        rw [e1, e2]
        have hy2 : (1583 : K) ≤ y2 := by
          have : ((1583 : Int) : K) ≤ y2 := le_trans (by exact_mod_cast hy) b1
          exact_mod_cast this
        have hy1 : y1 < 1582 + 355 / 365 := by
          by_contra hc
          exact hx ⟨not_lt.mp hc, by push_cast at a2; linarith, hy2⟩
        push_cast
        linarith
      · have e : yearLength ⌊y1⌋ = daysPerYear ⌊y1⌋ := by
          rw [daysPerYear_eq]; unfold yearLength; rw [if_neg h1582]
        rw [e]
        have := mul_lt_mul_of_pos_right (show y1 - (⌊y1⌋ : K) < 1 by linarith) (dpos ⌊y1⌋)
        linarith
    linarith
  · rw [← hy]
    have := mul_lt_mul_of_pos_right (sub_lt_sub_right hlt (⌊y1⌋ : K)) (dpos ⌊y1⌋)
    linarith

/-- C08, the inverse direction, outside the last ten 365ths of 1582. -/
theorem C08_inverse_partial (y : K) (h : -4715 ≤ y)
    (hx : ¬ (1582 + 355 / 365 ≤ y ∧ y < 1583)) :
    mjd2kToDecimalYear (decimalYearToMjd2k y) = y := by
  have hf1 : -4715 ≤ ⌊y⌋ := Int.le_floor.mpr (by exact_mod_cast h)
  have a1 : ((⌊y⌋ : Int) : K) ≤ y := Int.floor_le y
  have a2 : y < (⌊y⌋ : K) + 1 := Int.lt_floor_add_one y
  have dpos : (0 : K) < (daysPerYear ⌊y⌋ : K) := by
    have : 0 < daysPerYear ⌊y⌋ := by rw [daysPerYear_eq]; split <;> omega
    exact_mod_cast this
  have hlen := C07_year_length ⌊y⌋ (by omega)
  have c3 : (y - (⌊y⌋ : K)) * (daysPerYear ⌊y⌋ : K) < (yearLength ⌊y⌋ : K) := by
    by_cases h1582 : ⌊y⌋ = 1582
    · rw [h1582] at a1 a2 ⊢
      have e1 : yearLength 1582 = 355 := by decide
      have e2 : daysPerYear 1582 = 365 := by decide
      rw [e1, e2]
      have hy1 : y < 1582 + 355 / 365 := by
        by_contra hc
        exact hx ⟨not_lt.mp hc, by push_cast at a2; linarith⟩
      push_cast
      linarith
    · have e : yearLength ⌊y⌋ = daysPerYear ⌊y⌋ := by
        rw [daysPerYear_eq]; unfold yearLength; rw [if_neg h1582]
      rw [e]
      have := mul_lt_mul_of_pos_right (show y - (⌊y⌋ : K) < 1 by linarith) dpos
      linarith
  have c2 : (0 : K) ≤ (y - (⌊y⌋ : K)) * (daysPerYear ⌊y⌋ : K) :=
    mul_nonneg (by linarith) dpos.le
  have hlo : yearStart ⌊y⌋ ≤ ⌊(decimalYearToMjd2k y : K)⌋ := by
    apply Int.le_floor.mpr
    unfold decimalYearToMjd2k
    simp only []; linarith
  have hhi : ⌊(decimalYearToMjd2k y : K)⌋ < yearStart (⌊y⌋ + 1) := by
    apply Int.floor_lt.mpr
    have : (yearStart (⌊y⌋ + 1) : K) = (yearStart ⌊y⌋ : K) + (yearLength ⌊y⌋ : K) := by
      have : yearStart (⌊y⌋ + 1) = yearStart ⌊y⌋ + yearLength ⌊y⌋ := by omega
      exact_mod_cast this
    rw [this]
    unfold decimalYearToMjd2k
    simp only []; linarith
  have hfirst : firstDay ≤ yearStart ⌊y⌋ := by
    have e : yearStart (-4715) = -2452640 := by decide
    rcases eq_or_lt_of_le hf1 with he | hl
    · rw [← he, e]; unfold firstDay; omega
    · have h1 := C07_year_start_mono (-4715) ⌊y⌋ (by omega) hl
      have h2 := C07_year_length (-4715) (by omega)
      have h3 := yearLength_pos (-4715)
      unfold firstDay; omega
  have hyear := C07_year_unique _ ⌊y⌋ (le_trans hfirst hlo) (by omega) hlo hhi
  unfold mjd2kToDecimalYear mjd2kToYear
  simp only [hyear]
  unfold decimalYearToMjd2k
  have := yearsPerDay_eq (K := K) ⌊y⌋
  simp only []
  rw [add_sub_cancel_left, mul_assoc, mul_comm (daysPerYear ⌊y⌋ : K), this]
  ring

/-- C09: hours of the day. -/
theorem C09_hours (t : K) :
    (mjd2kToDate t).2.2.2 = 24 * (t - (⌊t⌋ : K)) ∧ 0 ≤ (mjd2kToDate t).2.2.2 ∧
      (mjd2kToDate t).2.2.2 < 24 := by
  have a1 : ((⌊t⌋ : Int) : K) ≤ t := Int.floor_le t
  have a2 : t < (⌊t⌋ : K) + 1 := Int.lt_floor_add_one t
  unfold mjd2kToDate
  refine ⟨rfl, ?_, ?_⟩ <;> simp only [] <;> linarith

/-- C09 for real times: the date advances by one civil day when the time advances by
one day, the hour stays. -/
theorem C09_date_advances (t : K) (h : (firstDay : K) ≤ t) :
    nextDate ((mjd2kToDate t).1, (mjd2kToDate t).2.1, (mjd2kToDate t).2.2.1) =
      ((mjd2kToDate (t + 1)).1, (mjd2kToDate (t + 1)).2.1, (mjd2kToDate (t + 1)).2.2.1) ∧
    (mjd2kToDate (t + 1)).2.2.2 = (mjd2kToDate t).2.2.2 := by
  have hd : firstDay ≤ ⌊t⌋ := Int.le_floor.mpr h
  unfold mjd2kToDate
  simp only [Int.floor_add_one]
  refine ⟨C09_next_day _ hd, ?_⟩
  push_cast; ring

end real

/-- Non-trivial instances: supported days reach far back, the dates of a leap day and
of the Gregorian reform. -/
example : firstDay ≤ -152385 ∧ (yearOf (-152385), monthOf (-152385), dayOf (-152385)) = (1582, 10, 4)
    ∧ (yearOf (-152384), monthOf (-152384), dayOf (-152384)) = (1582, 10, 15)
    ∧ (yearOf 59, monthOf 59, dayOf 59) = (2000, 2, 29) ∧ yearOf firstDay = -4716 := by decide

end Verif.Props
