/-
Lemmas on the calendar of the magnetic local time and the sub-solar point.
-/
import Verif.Model.Mlt
import Verif.Lemmas.Time
import Verif.Props.Time
import Mathlib.Data.Real.Archimedean
import Mathlib.Tactic.Ring
import Mathlib.Tactic.Linarith
import Mathlib.Tactic.NormNum

set_option linter.unusedSectionVars false

namespace Verif.Mlt

open Verif.Time Verif.Props

/-! ### Fast branches -/

theorem dateFast_spec (i : Int) (h0 : 0 ≤ i) (h1 : i < 54787) :
    dateFast i = (yearOf (i - 18262), monthOf (i - 18262), dayOf (i - 18262)) := by
  obtain ⟨q, n, hq, hn, hy, hm, hd, hcase⟩ := decomp (i - 18262) (by unfold firstDay; omega)
  rw [hy, hm, hd]
  rcases hcase with ⟨h, -, -⟩ | ⟨-, h2, h3⟩
  · omega
  · have hlen := SG_len q
    have hn365 : n ≤ 365 := by split at hlen <;> omega
    have h365 : n = 365 → (q + 1) % 4 = 0 := by
      intro h; split at hlen
      · next h => exact h.1
      · omega
    unfold SG at h2
    have hqb : 6665 ≤ q ∧ q ≤ 6815 := by omega
    have hc : (q + 184) / 100 * 3 / 4 = 51 := by
      have : (q + 184) / 100 = 68 ∨ (q + 184) / 100 = 69 := by omega
      rcases this with h | h <;> rw [h] <;> decide
    rw [hc] at h2
    obtain ⟨l, hl⟩ : ∃ l, l = (4000 * (i + 18204)).tdiv 1461001 := ⟨_, rfl⟩
    have hl' : l = q - 6616 := by
      rw [Int.tdiv_eq_ediv_of_nonneg (by omega)] at hl
      omega
    obtain ⟨w, hw⟩ : ∃ w, w = i - (1461 * l).tdiv 4 + 18234 := ⟨_, rfl⟩
    have hw' : w = n + 31 := by
      rw [Int.tdiv_eq_ediv_of_nonneg (by omega)] at hw
      omega
    obtain ⟨m, hm⟩ : ∃ m, m = (80 * w).tdiv 2447 := ⟨_, rfl⟩
    rw [Int.tdiv_eq_ediv_of_nonneg (by omega)] at hm
    have hmm : m = (5 * n + 2) / 153 + 1 := by omega
    unfold dateFast
    simp only [← hl, ← hw]
    rw [Int.tdiv_eq_ediv_of_nonneg (a := 80 * w) (by omega), ← hm, Int.tdiv_eq_ediv_of_nonneg (a := m) (by omega),
      Int.tdiv_eq_ediv_of_nonneg (a := 2447 * m) (by omega)]
    unfold yQ mQ dQ
    have hj : m / 11 = if 306 ≤ n then 1 else 0 := by split <;> omega
    rw [hj]
    refine Prod.ext ?_ (Prod.ext ?_ ?_)
    · simp only; split <;> omega
    · simp only; split <;> omega
    · simp only; omega

theorem daysFast_start (y : Int) (h1 : 1950 ≤ y) (h2 : y < 2100) : daysFast y 1 1 = yearStart y := by
  have e1 : y.tdiv 1900 = 1 := by rw [Int.tdiv_eq_ediv_of_nonneg (by omega)]; omega
  have e2 : (2000 : Int).tdiv (y + 1951) = 0 := by
    rw [Int.tdiv_eq_ediv_of_nonneg (by omega)]
    exact Int.ediv_eq_zero_of_lt (by omega) (by omega)
  have e3 : (14 - 1 : Int).tdiv 12 = 1 := by decide
  have e4 : (367 * (1 - 2 + 1 * 12) : Int).tdiv 12 = 336 := by decide
  unfold daysFast yearStart
  simp only [e1, e2, e3, e4]
  rw [Int.tdiv_eq_ediv_of_nonneg (by omega), Int.tdiv_eq_ediv_of_nonneg (by omega), Int.tdiv_eq_ediv_of_nonneg (by omega),
    Int.tdiv_eq_ediv_of_nonneg (by omega), if_pos (by omega)]
  have h : (y + 4799) / 400 - (y + 4799) / 100 = -51 := by
    rcases lt_or_ge y 2001 with h | h
    · have : (y + 4799) / 400 = 16 ∧ (y + 4799) / 100 = 67 := by omega
      omega
    · have : (y + 4799) / 400 = 17 ∧ (y + 4799) / 100 = 68 := by omega
      omega
  rw [h]
  omega

/-- Number of the leap days, within the years of SUBSOL. -/
theorem nleap_spec (y : Int) (h1 : 1601 ≤ y) (h2 : y ≤ 2100) : ∃ n, nleap y = some n ∧ 365 * (y - 2000) + n = yearStart y := by
  unfold nleap yearStart
  simp only
  have a1 : (y - 1601).tdiv 4 = (y - 1601) / 4 := Int.tdiv_eq_ediv_of_nonneg (by omega)
  have a2 : (y - 1601).tdiv 100 = (y - 1601) / 100 := Int.tdiv_eq_ediv_of_nonneg (by omega)
  have a3 : (y + 4799).tdiv 4 = (y + 4799) / 4 := Int.tdiv_eq_ediv_of_nonneg (by omega)
  have a4 : (y + 4799).tdiv 400 = (y + 4799) / 400 := Int.tdiv_eq_ediv_of_nonneg (by omega)
  have a5 : (y + 4799).tdiv 100 = (y + 4799) / 100 := Int.tdiv_eq_ediv_of_nonneg (by omega)
  rw [a1, a2, a3, a4, a5, if_pos (show y > 1582 by omega)]
  by_cases h : y ≤ 1900
  · rw [if_pos h, if_neg (by omega)]
    exact ⟨_, rfl, by omega⟩
  · rw [if_neg h, if_neg (by omega)]
    exact ⟨_, rfl, by omega⟩

theorem nleap_none (y : Int) : nleap y = none ↔ y ≤ 1600 ∨ 2101 ≤ y := by
  unfold nleap
  simp only
  split
  · split
    · simp; omega
    · simp; omega
  · split
    · simp; omega
    · simp; omega

/-! ### Truncation -/

theorem trunc_int_add (z : Int) (hz : 0 ≤ z) {fr : ℝ} (h0 : 0 ≤ fr) (h1 : fr < 1) : trunc ((z : ℝ) + fr) = z := by
  have hz' : (0 : ℝ) ≤ z := by exact_mod_cast hz
  unfold trunc
  rw [if_pos (by linarith), Int.floor_eq_iff]
  exact ⟨by linarith, by linarith⟩

theorem nint_int (z : Int) : nint (z : ℝ) = z := by
  unfold nint
  split
  · rw [Int.floor_eq_iff]; constructor <;> linarith
  · rw [← Int.cast_neg, neg_eq_iff_eq_neg, Int.floor_eq_iff]
    push_cast
    constructor <;> linarith

theorem nint_dist (x : ℝ) : |x - nint x| ≤ 1 / 2 := by
  unfold nint
  split
  · have h1 := Int.floor_le (x + 1 / 2)
    have h2 := Int.lt_floor_add_one (x + 1 / 2)
    rw [abs_le]; constructor <;> linarith
  · have h1 := Int.floor_le (-x + 1 / 2)
    have h2 := Int.lt_floor_add_one (-x + 1 / 2)
    push_cast
    rw [abs_le]; constructor <;> linarith

/-! ### Julian dates -/

/-- The loop over the months with integers. -/
def monthLoopI : List Int → Int → Int → Option (Int × Int)
  | [], _, _ => none
  | l :: ls, mo, d => if d ≥ l then monthLoopI ls (mo + 1) (d - l) else some (mo, d)

theorem monthLoop_eq (ls : List Int) {fr : ℝ} (h0 : 0 ≤ fr) (h1 : fr < 1) : ∀ (mo z : Int), 0 ≤ z →
    monthLoop ls mo ((z : ℝ) + fr) = (monthLoopI ls mo z).map fun r => (r.1, (r.2 : ℝ) + fr) := by
  induction ls with
  | nil => intro mo z hz; rfl
  | cons l ls ih =>
    intro mo z hz
    unfold monthLoop monthLoopI
    rw [trunc_int_add z hz h0 h1]
    by_cases h : z ≥ l
    · rw [if_pos h, if_pos h, ← ih (mo + 1) (z - l) (by omega)]
      congr 1; push_cast; ring
    · rw [if_neg h, if_neg h]; rfl

theorem monthLoopI_pos {l d : Int} {ls : List Int} {mo : Int} (h : d ≥ l) :
    monthLoopI (l :: ls) mo d = monthLoopI ls (mo + 1) (d - l) := by rw [monthLoopI, if_pos h]

theorem monthLoopI_neg {l d : Int} {ls : List Int} {mo : Int} (h : d < l) :
    monthLoopI (l :: ls) mo d = some (mo, d) := by rw [monthLoopI, if_neg (by omega)]

/-- Month and day of the day `r` of a year: the days before the month and the day of the month. -/
theorem monthLoopI_spec (feb r : Int) (hf : feb = 28 ∨ feb = 29) (h0 : 0 ≤ r) (h1 : r < 337 + feb) :
    ∃ m d, monthLoopI (months feb) 1 r = some (m, d) ∧ 0 ≤ d ∧ ((months feb).take (m - 1).toNat).sum + d = r ∧
      (31 + feb ≤ r → m = mQ (r - 31 - feb) ∧ d + 1 = dQ (r - 31 - feb)) ∧
      (r < 31 + feb → m = mQ (r + 306) ∧ d + 1 = dQ (r + 306)) := by
  unfold months
  rcases lt_or_ge (r) 31 with c | c
  · rw [monthLoopI_neg c]
    refine ⟨_, _, rfl, by omega, by simp <;> omega, ?_, ?_⟩
    · intro h; unfold mQ dQ; rcases hf with rfl | rfl <;> (try split) <;> omega
    · intro h; unfold mQ dQ; rcases hf with rfl | rfl <;> (try split) <;> omega
  rw [monthLoopI_pos c]
  rcases lt_or_ge (r - 31) feb with c | c
  · rw [monthLoopI_neg c]
    refine ⟨_, _, rfl, by omega, by simp <;> omega, ?_, ?_⟩
    · intro h; unfold mQ dQ; rcases hf with rfl | rfl <;> (try split) <;> omega
    · intro h; unfold mQ dQ; rcases hf with rfl | rfl <;> (try split) <;> omega
  rw [monthLoopI_pos c]
  rcases lt_or_ge (r - 31 - feb) 31 with c | c
  · rw [monthLoopI_neg c]
    refine ⟨_, _, rfl, by omega, by simp <;> omega, ?_, ?_⟩
    · intro h; unfold mQ dQ; rcases hf with rfl | rfl <;> (try split) <;> omega
    · intro h; unfold mQ dQ; rcases hf with rfl | rfl <;> (try split) <;> omega
  rw [monthLoopI_pos c]
  rcases lt_or_ge (r - 31 - feb - 31) 30 with c | c
  · rw [monthLoopI_neg c]
    refine ⟨_, _, rfl, by omega, by simp <;> omega, ?_, ?_⟩
    · intro h; unfold mQ dQ; rcases hf with rfl | rfl <;> (try split) <;> omega
    · intro h; unfold mQ dQ; rcases hf with rfl | rfl <;> (try split) <;> omega
  rw [monthLoopI_pos c]
  rcases lt_or_ge (r - 31 - feb - 31 - 30) 31 with c | c
  · rw [monthLoopI_neg c]
    refine ⟨_, _, rfl, by omega, by simp <;> omega, ?_, ?_⟩
    · intro h; unfold mQ dQ; rcases hf with rfl | rfl <;> (try split) <;> omega
    · intro h; unfold mQ dQ; rcases hf with rfl | rfl <;> (try split) <;> omega
  rw [monthLoopI_pos c]
  rcases lt_or_ge (r - 31 - feb - 31 - 30 - 31) 30 with c | c
  · rw [monthLoopI_neg c]
    refine ⟨_, _, rfl, by omega, by simp <;> omega, ?_, ?_⟩
    · intro h; unfold mQ dQ; rcases hf with rfl | rfl <;> (try split) <;> omega
    · intro h; unfold mQ dQ; rcases hf with rfl | rfl <;> (try split) <;> omega
  rw [monthLoopI_pos c]
  rcases lt_or_ge (r - 31 - feb - 31 - 30 - 31 - 30) 31 with c | c
  · rw [monthLoopI_neg c]
    refine ⟨_, _, rfl, by omega, by simp <;> omega, ?_, ?_⟩
    · intro h; unfold mQ dQ; rcases hf with rfl | rfl <;> (try split) <;> omega
    · intro h; unfold mQ dQ; rcases hf with rfl | rfl <;> (try split) <;> omega
  rw [monthLoopI_pos c]
  rcases lt_or_ge (r - 31 - feb - 31 - 30 - 31 - 30 - 31) 31 with c | c
  · rw [monthLoopI_neg c]
    refine ⟨_, _, rfl, by omega, by simp <;> omega, ?_, ?_⟩
    · intro h; unfold mQ dQ; rcases hf with rfl | rfl <;> (try split) <;> omega
    · intro h; unfold mQ dQ; rcases hf with rfl | rfl <;> (try split) <;> omega
  rw [monthLoopI_pos c]
  rcases lt_or_ge (r - 31 - feb - 31 - 30 - 31 - 30 - 31 - 31) 30 with c | c
  · rw [monthLoopI_neg c]
    refine ⟨_, _, rfl, by omega, by simp <;> omega, ?_, ?_⟩
    · intro h; unfold mQ dQ; rcases hf with rfl | rfl <;> (try split) <;> omega
    · intro h; unfold mQ dQ; rcases hf with rfl | rfl <;> (try split) <;> omega
  rw [monthLoopI_pos c]
  rcases lt_or_ge (r - 31 - feb - 31 - 30 - 31 - 30 - 31 - 31 - 30) 31 with c | c
  · rw [monthLoopI_neg c]
    refine ⟨_, _, rfl, by omega, by simp <;> omega, ?_, ?_⟩
    · intro h; unfold mQ dQ; rcases hf with rfl | rfl <;> (try split) <;> omega
    · intro h; unfold mQ dQ; rcases hf with rfl | rfl <;> (try split) <;> omega
  rw [monthLoopI_pos c]
  rcases lt_or_ge (r - 31 - feb - 31 - 30 - 31 - 30 - 31 - 31 - 30 - 31) 30 with c | c
  · rw [monthLoopI_neg c]
    refine ⟨_, _, rfl, by omega, by simp <;> omega, ?_, ?_⟩
    · intro h; unfold mQ dQ; rcases hf with rfl | rfl <;> (try split) <;> omega
    · intro h; unfold mQ dQ; rcases hf with rfl | rfl <;> (try split) <;> omega
  rw [monthLoopI_pos c]
  rcases lt_or_ge (r - 31 - feb - 31 - 30 - 31 - 30 - 31 - 31 - 30 - 31 - 30) 31 with c | c
  · rw [monthLoopI_neg c]
    refine ⟨_, _, rfl, by omega, by simp <;> omega, ?_, ?_⟩
    · intro h; unfold mQ dQ; rcases hf with rfl | rfl <;> (try split) <;> omega
    · intro h; unfold mQ dQ; rcases hf with rfl | rfl <;> (try split) <;> omega
  rw [monthLoopI_pos c]
  exfalso; omega

/-- Cycles of 400 years and the centuries, counted from March of the year 0. -/
theorem centuries {p n A : Int} (hp : 0 ≤ p) (hn : 0 ≤ n)
    (hl : n ≤ 364 ∨ n = 365 ∧ (p + 1) % 4 = 0 ∧ ((p + 1) % 100 ≠ 0 ∨ (p + 1) % 400 = 0))
    (hA : A = 365 * p + p / 4 - p / 100 + p / 400 + n) :
    A.tdiv 146097 = p / 400 ∧ min ((A - A.tdiv 146097 * 146097).tdiv 36524) 3 = p % 400 / 100 := by
  obtain ⟨a, b, e, ha, hb0, hb3, he0, he99, hpe⟩ : ∃ a b e : Int, 0 ≤ a ∧ 0 ≤ b ∧ b ≤ 3 ∧ 0 ≤ e ∧ e ≤ 99 ∧ p = 400 * a + 100 * b + e :=
    ⟨p / 400, p % 400 / 100, p % 100, by omega, by omega, by omega, by omega, by omega, by omega⟩
  have e4 : p / 4 = 100 * a + 25 * b + e / 4 := by omega
  have e100 : p / 100 = 4 * a + b := by omega
  have e400 : p / 400 = a := by omega
  have er : p % 400 / 100 = b := by omega
  rw [e4, e100, e400] at hA
  have hA' : A = 146097 * a + (36524 * b + 365 * e + e / 4 + n) := by omega
  have hle : 365 * e + e / 4 + n ≤ 36524 ∧ (b ≤ 2 → 365 * e + e / 4 + n ≤ 36523) := by
    rcases hl with h | ⟨h1, h2, h3⟩
    · omega
    · rcases h3 with h3 | h3 <;> omega
  have t1 : A.tdiv 146097 = a := by
    rw [Int.tdiv_eq_ediv_of_nonneg (by omega)]
    omega
  rw [t1, e400, er]
  refine ⟨rfl, ?_⟩
  rw [Int.tdiv_eq_ediv_of_nonneg (by omega)]
  have : A - a * 146097 = 36524 * b + (365 * e + e / 4 + n) := by omega
  rw [this]
  rcases (show b = 0 ∨ b = 1 ∨ b = 2 ∨ b = 3 by omega) with rfl | rfl | rfl | rfl <;> omega

/-- The day of a date of the Gregorian calendar in terms of the Julian one. -/
theorem julianDays_spec (t : ℝ) (q n : Int) (hd : -152384 ≤ ⌊t⌋) (hn : 0 ≤ n) (h2 : ⌊t⌋ + 2451545 + 1363 = SG q + n)
    (h3 : n < SG (q + 1) - SG q) :
    julianDays (t + jd0) = ((SJ q + n - 1401 : Int) : ℝ) + (t - ⌊t⌋) := by
  have hlen := SG_len q
  have hn365 : n ≤ 365 := by split at hlen <;> omega
  have hq : 6297 ≤ q := by
    by_contra h
    have hm := SG_mono.monotone (show q ≤ 6296 by omega)
    have : SG 6296 = 2299566 := by decide
    omega
  have ft : (⌊t⌋ : ℝ) ≤ t := Int.floor_le t
  have hdR : (-152384 : ℝ) ≤ ⌊t⌋ := by exact_mod_cast hd
  unfold julianDays jd0
  rw [if_pos (by norm_num; linarith)]
  have hA : trunc (t + (2451544 + 1 / 2) - (1721119 + 1 / 2)) = ⌊t⌋ + 730425 := by
    have : t + (2451544 + 1 / 2) - (1721119 + 1 / 2) = ((⌊t⌋ + 730425 : Int) : ℝ) + (t - ⌊t⌋) := by push_cast; ring
    rw [this]
    exact trunc_int_add _ (by omega) (by linarith) (by have := Int.lt_floor_add_one t; linarith)
  have hp : ⌊t⌋ + 730425 = 365 * (q - 4716) + (q - 4716) / 4 - (q - 4716) / 100 + (q - 4716) / 400 + n := by
    unfold SG at h2
    have : (q + 184) / 100 = (q - 4716) / 100 + 49 := by omega
    have h5 : (q - 4716) / 400 = (q - 4716) / 100 / 4 := by omega
    omega
  obtain ⟨c1, c2⟩ := centuries (p := q - 4716) (by omega) hn (by
    split at hlen
    · next h => omega
    · omega) hp
  rw [c1] at c2
  simp only [hA, c1, c2]
  have hfin : ⌊t⌋ + 2451543 + 3 * ((q - 4716) / 400) + (q - 4716) % 400 / 100 = SJ q + n - 1401 := by
    unfold SJ
    omega
  rw [← hfin]
  push_cast
  ring

/-- Length of February in the year `y`. -/
def febOf (y : Int) : Int := if Verif.Spec.leap y then 29 else 28

theorem century_iff (y : Int) : century y = true ↔ y % 100 = 0 ∧ y % 400 ≠ 0 := by
  unfold century
  have e100 : y.tmod 100 = 0 ↔ y % 100 = 0 := by
    rw [← Int.dvd_iff_tmod_eq_zero, ← Int.dvd_iff_emod_eq_zero]
  have e400 : y.tmod 400 = 0 ↔ y % 400 = 0 := by
    rw [← Int.dvd_iff_tmod_eq_zero, ← Int.dvd_iff_emod_eq_zero]
  simp only [Bool.and_eq_true, beq_iff_eq, bne_iff_ne, ne_eq, e100, e400]

/-- Year and day of the year of a day of the Gregorian calendar. -/
theorem cycleYear_spec {q n : Int} (hq : 6297 ≤ q) (hn : 0 ≤ n) (h3 : n < SG (q + 1) - SG q) :
    ∃ r, cycleYear true ((SJ q + n - 1401) / 1461) ((SJ q + n - 1401) % 1461) =
        (yQ q n, febOf (yQ q n), (SJ q + n - 1401) % 1461 - r) ∧
      r = (if 306 ≤ n then n - 306 else n + 31 + febOf (yQ q n)) ∧ 0 ≤ r ∧ r < 337 + febOf (yQ q n) := by
  have hlen := SG_len q
  have hn365 : n ≤ 365 := by split at hlen <;> omega
  have hl : n ≤ 364 ∨ n = 365 ∧ (q + 1) % 4 = 0 ∧ ((q + 185) % 100 ≠ 0 ∨ (q + 185) % 400 = 100) := by
    split at hlen
    · next h => omega
    · omega
  have hf : febOf (yQ q n) = 28 ∨ febOf (yQ q n) = 29 := by unfold febOf; split <;> simp
  refine ⟨_, ?_, rfl, ?_⟩
  · unfold SJ
    obtain ⟨k, c, hc, hqk⟩ : ∃ k c : Int, (c = 0 ∨ c = 1 ∨ c = 2 ∨ c = 3) ∧ q = 4 * k + c := ⟨q / 4, q % 4, by omega, by omega⟩
    have hz : 365 * q + q / 4 + n - 1401 = 1461 * (k - 1) + (365 * c + n + 60) := by omega
    rw [hz]
    -- years which are not the first ones of the period
    have other : ∀ (j w : Int) (y off r : Int), 1461 * (k - 1) + (365 * c + n + 60) = 1461 * j + w → 0 ≤ w → w < 1461 →
        (y = 4 * j - 4712 + 1 ∧ off = 366 ∨ y = 4 * j - 4712 + 2 ∧ off = 731 ∨ y = 4 * j - 4712 + 3 ∧ off = 1096) →
        off ≤ w → w < off + 365 → r = w - off →
        cycleYear true ((1461 * (k - 1) + (365 * c + n + 60)) / 1461) ((1461 * (k - 1) + (365 * c + n + 60)) % 1461) =
          (y, febOf y, (1461 * (k - 1) + (365 * c + n + 60)) % 1461 - r) := by
      intro j w y off r h1 h2 h3 h4 h5 h6 h7
      have e1 : (1461 * (k - 1) + (365 * c + n + 60)) / 1461 = j := by omega
      have e2 : (1461 * (k - 1) + (365 * c + n + 60)) % 1461 = w := by omega
      have hfeb : febOf y = 28 := by
        unfold febOf
        rw [if_neg]
        rw [leap_iff]
        omega
      rw [e1, e2, hfeb]
      unfold cycleYear
      rcases h4 with ⟨rfl, rfl⟩ | ⟨rfl, rfl⟩ | ⟨rfl, rfl⟩
      · rw [if_neg (by omega), if_neg (by omega), if_pos (by omega)]
        refine Prod.ext ?_ (Prod.ext rfl ?_) <;> simp only <;> omega
      · rw [if_neg (by omega), if_pos (by omega)]
        refine Prod.ext ?_ (Prod.ext rfl ?_) <;> simp only <;> omega
      · rw [if_pos (by omega)]
        refine Prod.ext ?_ (Prod.ext rfl ?_) <;> simp only <;> omega
    -- the first year of the period
    have first : ∀ (j w : Int) (y r : Int), 1461 * (k - 1) + (365 * c + n + 60) = 1461 * j + w → 0 ≤ w → w < 366 →
        y = 4 * j - 4712 → 1581 ≤ y → r = (if w > 59 then w - 60 + 31 + febOf y else w) →
        cycleYear true ((1461 * (k - 1) + (365 * c + n + 60)) / 1461) ((1461 * (k - 1) + (365 * c + n + 60)) % 1461) =
          (y, febOf y, (1461 * (k - 1) + (365 * c + n + 60)) % 1461 - r) := by
      intro j w y r h1 h2 h3 h4 h5 h6
      have e1 : (1461 * (k - 1) + (365 * c + n + 60)) / 1461 = j := by omega
      have e2 : (1461 * (k - 1) + (365 * c + n + 60)) % 1461 = w := by omega
      rw [e1, e2]
      unfold cycleYear
      rw [if_neg (by omega), if_neg (by omega), if_neg (by omega), ← h4]
      by_cases hcen : y % 100 = 0 ∧ y % 400 ≠ 0
      · have hfeb : febOf y = 28 := by
          unfold febOf
          rw [if_neg]
          rw [leap_iff]
          omega
        have : (true && century y) = true := by rw [Bool.true_and, century_iff]; exact hcen
        rw [if_pos this, hfeb]
        rw [hfeb] at h6
        refine Prod.ext rfl (Prod.ext rfl ?_)
        simp only
        split at h6 <;> split <;> omega
      · have hfeb : febOf y = 29 := by
          unfold febOf
          rw [if_pos]
          rw [leap_iff]
          omega
        have : ¬ (true && century y) = true := by rw [Bool.true_and, century_iff]; exact hcen
        rw [if_neg this, hfeb]
        rw [hfeb] at h6
        refine Prod.ext rfl (Prod.ext rfl ?_)
        simp only
        split at h6 <;> omega
    by_cases h306 : 306 ≤ n
    · rw [if_pos h306]
      have hy : yQ q n = q - 4715 := by unfold yQ; rw [if_pos h306]; omega
      rcases hc with rfl | rfl | rfl | rfl
      · exact other (k - 1) (n + 60) _ 366 _ (by omega) (by omega) (by omega) (by omega) (by omega) (by omega) (by omega)
      · exact other (k - 1) (n + 425) _ 731 _ (by omega) (by omega) (by omega) (by omega) (by omega) (by omega) (by omega)
      · exact other (k - 1) (n + 790) _ 1096 _ (by omega) (by omega) (by omega) (by omega) (by omega) (by omega) (by omega)
      · exact first k (n - 306) _ _ (by omega) (by omega) (by omega) (by omega) (by omega)
          (by rw [if_neg (by omega)])
    · rw [if_neg h306]
      have hy : yQ q n = q - 4716 := by unfold yQ; rw [if_neg h306]; omega
      have hfeb : ∀ y : Int, y % 4 ≠ 0 → febOf y = 28 := by
        intro y hy; unfold febOf; rw [if_neg]; rw [leap_iff]; omega
      rcases hc with rfl | rfl | rfl | rfl
      · exact first (k - 1) (n + 60) _ _ (by omega) (by omega) (by omega) (by omega) (by omega)
          (by rw [if_pos (by omega)]; omega)
      · have := hfeb (yQ q n) (by omega)
        exact other (k - 1) (n + 425) _ 366 _ (by omega) (by omega) (by omega) (by omega) (by omega) (by omega) (by omega)
      · have := hfeb (yQ q n) (by omega)
        exact other (k - 1) (n + 790) _ 731 _ (by omega) (by omega) (by omega) (by omega) (by omega) (by omega) (by omega)
      · have := hfeb (yQ q n) (by omega)
        exact other (k - 1) (n + 1155) _ 1096 _ (by omega) (by omega) (by omega) (by omega) (by omega) (by omega) (by omega)
  · have hfy : n = 365 → febOf (yQ q n) = 29 := by
      intro h
      have : yQ q n = q - 4715 := by unfold yQ; rw [if_pos (by omega)]; omega
      rw [this]; unfold febOf; rw [if_pos]; rw [leap_iff]; omega
    split <;> omega

/-- Day of the Gregorian calendar: year, day of the year and date. -/
theorem date_greg {day : Int} (h : -152384 ≤ day) : ∃ q n r m d : Int, 6297 ≤ q ∧ 0 ≤ n ∧ day + 2451545 + 1363 = SG q + n ∧ n < SG (q + 1) - SG q ∧
    yearOf day = yQ q n ∧ monthOf day = m ∧ dayOf day = d + 1 ∧
    cycleYear true ((SJ q + n - 1401) / 1461) ((SJ q + n - 1401) % 1461) =
        (yQ q n, febOf (yQ q n), (SJ q + n - 1401) % 1461 - r) ∧
    0 ≤ r ∧ r = (if 306 ≤ n then n - 306 else n + 31 + febOf (yQ q n)) ∧
    monthLoopI (months (febOf (yQ q n))) 1 r = some (m, d) ∧ ((months (febOf (yQ q n))).take (m - 1).toNat).sum + d = r := by
  obtain ⟨q, n, hq, hn, hy, hm, hd, hcase⟩ := decomp day (by unfold firstDay; omega)
  rcases hcase with ⟨h1, -, -⟩ | ⟨-, h2, h3⟩
  · omega
  have hlen := SG_len q
  have hn365 : n ≤ 365 := by split at hlen <;> omega
  have hq' : 6297 ≤ q := by
    by_contra h
    have hm := SG_mono.monotone (show q ≤ 6296 by omega)
    have : SG 6296 = 2299566 := by decide
    omega
  obtain ⟨r, c1, c2, c3, c4⟩ := cycleYear_spec hq' hn h3
  obtain ⟨m, d, m1, m2, m3, m4, m5⟩ := monthLoopI_spec (febOf (yQ q n)) r (by unfold febOf; split <;> simp) c3 c4
  have hmd : m = mQ n ∧ d + 1 = dQ n := by
    by_cases h306 : 306 ≤ n
    · rw [if_pos h306] at c2
      have : r < 31 + febOf (yQ q n) := by
        have hfy : n = 365 → febOf (yQ q n) = 29 := by
          intro h
          have : yQ q n = q - 4715 := by unfold yQ; rw [if_pos (by omega)]; omega
          rw [this]; unfold febOf; rw [if_pos]; rw [leap_iff]
          split at hlen
          · next h => omega
          · omega
        have hf : febOf (yQ q n) = 28 ∨ febOf (yQ q n) = 29 := by unfold febOf; split <;> simp
        omega
      have := m5 this
      rw [c2, show n - 306 + 306 = n by ring] at this
      exact this
    · rw [if_neg h306] at c2
      have := m4 (by omega)
      rw [c2, show n + 31 + febOf (yQ q n) - 31 - febOf (yQ q n) = n by ring] at this
      exact this
  exact ⟨q, n, r, m, d, hq', hn, h2, h3, hy, by rw [hm, hmd.1], by rw [hd, hmd.2], c1, c3, c2, m1, m3⟩

theorem tjudaDate_spec (t : ℝ) (hd : -152384 ≤ ⌊t⌋) :
    tjudaDate (t + jd0) = some (yearOf ⌊t⌋, monthOf ⌊t⌋, dayOf ⌊t⌋) := by
  obtain ⟨q, n, r, m, d, hq, hn, h2, h3, hy, hm, hdy, hc, hr, -, hml, -⟩ := date_greg hd
  have f1 : (0 : ℝ) ≤ t - ⌊t⌋ := by have := Int.floor_le t; linarith
  have f2 : t - ⌊t⌋ < (1 : ℝ) := by have := Int.lt_floor_add_one t; linarith
  have hz : 0 ≤ SJ q + n - 1401 := by unfold SJ; omega
  have hg : decide (t + jd0 ≥ (2299160 + 1 / 2 : ℝ)) = true := by
    rw [decide_eq_true_eq]
    have : (-152384 : ℝ) ≤ ⌊t⌋ := by exact_mod_cast hd
    have := Int.floor_le t
    unfold jd0; norm_num; linarith
  unfold tjudaDate
  simp only [julianDays_spec t q n hd hn h2 h3, hg]
  rw [trunc_int_add _ hz f1 f2, Int.tdiv_eq_ediv_of_nonneg hz]
  have e1 : ((SJ q + n - 1401 : Int) : ℝ) + (t - ⌊t⌋) - (((SJ q + n - 1401) / (4 * 365 + 1) * (4 * 365 + 1) : Int) : ℝ) =
      (((SJ q + n - 1401) % 1461 : Int) : ℝ) + (t - ⌊t⌋) := by
    have : (SJ q + n - 1401) % 1461 = (SJ q + n - 1401) - (SJ q + n - 1401) / (4 * 365 + 1) * (4 * 365 + 1) := by omega
    rw [this]; push_cast; ring
  rw [e1, trunc_int_add _ (by omega) f1 f2, show (4 * 365 + 1 : Int) = 1461 by norm_num, hc]
  simp only
  have e2 : (((SJ q + n - 1401) % 1461 : Int) : ℝ) + (t - ⌊t⌋) - (((SJ q + n - 1401) % 1461 - r : Int) : ℝ) = (r : ℝ) + (t - ⌊t⌋) := by
    push_cast; ring
  rw [e2, monthLoop_eq _ f1 f2 _ _ hr, hml]
  have hyp : 0 < yQ q n := by unfold yQ; split <;> omega
  have hd0 : 0 ≤ d := by
    have := (C09_valid ⌊t⌋ (by unfold firstDay; omega)).2.2.1
    omega
  simp only [Option.map_some, trunc_int_add d hd0 f1 f2, civilYear, if_pos hyp, hy, hm, hdy]

theorem tjudaJd_spec (day : Int) (hd : yearStart 1583 ≤ day) :
    (tjudaJd (yearOf day) (monthOf day) (dayOf day) : ℝ) = (day : ℝ) + jd0 := by
  have y0 : yearStart 1583 = -152306 := by decide
  obtain ⟨q, n, r, m, d, hq, hn, h2, h3, hy, hm, hdy, hc, hr, hr2, hml, hsum⟩ := date_greg (day := day) (by omega)
  have hb := C07_year_bracket day (by unfold firstDay; omega)
  have hyp : 1582 < yQ q n := by
    rw [← hy]
    by_contra hcon
    have hge : 1581 ≤ yearOf day := by rw [hy]; unfold yQ; split <;> omega
    have h1 : yearOf day = 1581 ∨ yearOf day = 1582 := by omega
    have e1 : yearStart (1581 + 1) = -152661 := by decide
    have e2 : yearStart (1582 + 1) = -152306 := by decide
    rcases h1 with h1 | h1 <;> rw [h1] at hb <;> omega
  unfold tjudaJd
  simp only [hy, hm, hdy, astroYear]
  rw [if_pos (by omega)]
  have hyd : yearDays (yQ q n) m (d + 1) =
      ((yQ q n - 1 + 4713) * 365 + (yQ q n - 1 + 4716) / 4 - (yQ q n - 1) / 100 + (yQ q n - 1) / 400 + 2, febOf (yQ q n)) := by
    unfold yearDays
    have e4 : (yQ q n).tmod 4 = 0 ↔ (yQ q n) % 4 = 0 := by
      rw [← Int.dvd_iff_tmod_eq_zero, ← Int.dvd_iff_emod_eq_zero]
    simp only [Bool.or_eq_true, decide_eq_true_eq, Bool.and_eq_true, beq_iff_eq, e4]
    rw [if_pos (Or.inl (Or.inl (by omega))), Int.tdiv_eq_ediv_of_nonneg (by omega), Int.tdiv_eq_ediv_of_nonneg (by omega),
      Int.tdiv_eq_ediv_of_nonneg (by omega)]
    refine Prod.ext rfl ?_
    simp only
    have hlp := leap_iff (yQ q n)
    rw [febOf]
    by_cases hcen : century (yQ q n) = true
    · rw [if_pos hcen]
      rw [century_iff] at hcen
      rw [if_neg (by rw [hlp]; omega)]
    · rw [if_neg hcen]
      rw [century_iff] at hcen
      by_cases h4 : yQ q n % 4 = 0
      · rw [if_pos h4, if_pos (by rw [hlp]; omega)]
      · rw [if_neg h4, if_neg (by rw [hlp]; omega)]
  rw [hyd]
  simp only
  have hfin : (yQ q n - 1 + 4713) * 365 + (yQ q n - 1 + 4716) / 4 - (yQ q n - 1) / 100 + (yQ q n - 1) / 400 + 2 + r + 1 = day + 2451546 := by
    unfold SG at h2
    by_cases h306 : 306 ≤ n
    · rw [if_pos h306] at hr2
      have hyq : yQ q n = q - 4715 := by unfold yQ; rw [if_pos h306]; omega
      rw [hyq]
      have e1 : (q + 184) / 100 = (q - 4715 - 1) / 100 + 49 := by omega
      have e2 : (q - 4715 - 1) / 400 = (q - 4715 - 1) / 100 / 4 := by omega
      omega
    · rw [if_neg h306] at hr2
      have hyq : yQ q n = q - 4716 := by unfold yQ; rw [if_neg h306]; omega
      have hlp := leap_iff (yQ q n)
      have hlow : ¬ yQ q n ≤ 1582 := by omega
      have e1 : (q + 184) / 100 = (q - 4716) / 100 + 49 := by omega
      have e2 : (q - 4716) / 400 = (q - 4716) / 100 / 4 := by omega
      by_cases hl : Verif.Spec.leap (yQ q n)
      · have hf : febOf (yQ q n) = 29 := by unfold febOf; rw [if_pos hl]
        rw [hf] at hr2
        rw [hlp] at hl
        rw [hyq] at hl ⊢
        rcases hl.2 with h | h | h
        · omega
        · have e3 : (q - 4716 - 1) / 100 = (q - 4716) / 100 := by omega
          have e4 : (q - 4716 - 1) / 400 = (q - 4716) / 400 := by omega
          omega
        · have e3 : (q - 4716 - 1) / 100 = (q - 4716) / 100 - 1 := by omega
          have e4 : (q - 4716 - 1) / 400 = (q - 4716) / 400 - 1 := by omega
          omega
      · have hf : febOf (yQ q n) = 28 := by unfold febOf; rw [if_neg hl]
        rw [hf] at hr2
        rw [hlp] at hl
        rw [hyq] at hl ⊢
        by_cases h100 : (q - 4716) % 100 = 0
        · have e3 : (q - 4716 - 1) / 100 = (q - 4716) / 100 - 1 := by omega
          have e4 : (q - 4716 - 1) / 400 = (q - 4716) / 400 := by omega
          omega
        · have e3 : (q - 4716 - 1) / 100 = (q - 4716) / 100 := by omega
          have e4 : (q - 4716 - 1) / 400 = (q - 4716) / 400 := by omega
          omega
  have : (yQ q n - 1 + 4713) * 365 + (yQ q n - 1 + 4716) / 4 - (yQ q n - 1) / 100 + (yQ q n - 1) / 400 + 2 +
      ((months (febOf (yQ q n))).take (m - 1).toNat).sum + (d + 1) = day + 2451546 := by omega
  rw [this]
  unfold jd0
  push_cast
  ring

theorem tjudaJd_start (y : Int) (h : 1583 ≤ y) : (tjudaJd y 1 1 : ℝ) = (yearStart y : ℝ) + jd0 := by
  unfold tjudaJd astroYear
  simp only
  rw [if_pos (by omega)]
  have hyd : (yearDays y 1 1).1 = yearStart y + 2451545 := by
    unfold yearDays yearStart
    simp only [Bool.or_eq_true, decide_eq_true_eq, Bool.and_eq_true, beq_iff_eq]
    rw [if_pos (Or.inl (Or.inl (by omega))), if_pos (show y > 1582 by omega)]
    have a1 : (y - 1 + 4716).tdiv 4 = (y - 1 + 4716) / 4 := Int.tdiv_eq_ediv_of_nonneg (by omega)
    have a2 : (y - 1).tdiv 100 = (y - 1) / 100 := Int.tdiv_eq_ediv_of_nonneg (by omega)
    have a3 : (y - 1).tdiv 400 = (y - 1) / 400 := Int.tdiv_eq_ediv_of_nonneg (by omega)
    have a4 : (y + 4799).tdiv 4 = (y + 4799) / 4 := Int.tdiv_eq_ediv_of_nonneg (by omega)
    have a5 : (y + 4799).tdiv 100 = (y + 4799) / 100 := Int.tdiv_eq_ediv_of_nonneg (by omega)
    have a6 : (y + 4799).tdiv 400 = (y + 4799) / 400 := Int.tdiv_eq_ediv_of_nonneg (by omega)
    rw [a1, a2, a3, a4, a5, a6]
    have e1 : (y + 4799) / 100 = (y - 1) / 100 + 48 := by omega
    have e2 : (y + 4799) / 400 = (y - 1) / 400 + 12 := by omega
    simp only [e1, e2]
    omega
  simp only [hyd, sub_self, Int.toNat_zero, List.take_zero, List.sum_nil]
  unfold jd0
  push_cast
  ring

/-- The start of a year. -/
theorem tmjdFwd_start (y : Int) (h : 1583 ≤ y) : (tmjdFwd y 1 1 0 0 0 : ℝ) = (yearStart y : ℝ) := by
  unfold tmjdFwd
  by_cases hf : 1950 ≤ y ∧ y < 2100
  · have : (decide (y ≥ 1950) && decide (y < 2100)) = true := by simpa using hf
    simp only [this, if_true, daysFast_start y hf.1 hf.2]
    simp
  · have : (decide (y ≥ 1950) && decide (y < 2100)) = false := by
      rw [Bool.and_eq_false_iff]
      rcases not_and_or.mp hf with h | h
      · left; simpa using h
      · right; simpa using h
    simp only [this, Bool.false_eq_true, if_false, tjudaJd_start y h, add_sub_cancel_right, nint_int]
    simp

/-- Date and hours of a day. -/
theorem tmjdDay_spec (t : ℝ) (h : yearStart 1583 ≤ ⌊t⌋) :
    tmjdDay t = some (yearOf ⌊t⌋, monthOf ⌊t⌋, dayOf ⌊t⌋, (t - ⌊t⌋) * 24) := by
  have y0 : yearStart 1583 = -152306 := by decide
  have f1 : (0 : ℝ) ≤ t - ⌊t⌋ := by have := Int.floor_le t; linarith
  have f2 : t - ⌊t⌋ < (1 : ℝ) := by have := Int.lt_floor_add_one t; linarith
  unfold tmjdDay
  by_cases hf : -18262 < t ∧ t < 36525
  · have hb : (decide (t > -18262) && decide (t < 36525)) = true := by simpa using hf
    have g1 : -18262 ≤ ⌊t⌋ := Int.le_floor.mpr (by push_cast; linarith [hf.1])
    have g2 : ⌊t⌋ < 36525 := Int.floor_lt.mpr (by push_cast; exact hf.2)
    have ht : trunc (t + 18262) = ⌊t⌋ + 18262 := by
      have : t + 18262 = ((⌊t⌋ + 18262 : Int) : ℝ) + (t - ⌊t⌋) := by push_cast; ring
      rw [this]; exact trunc_int_add _ (by omega) f1 f2
    simp only [hb, if_true, ht, dateFast_spec _ (show 0 ≤ ⌊t⌋ + 18262 by omega) (by omega), add_sub_cancel_right]
  · have hb : (decide (t > -18262) && decide (t < 36525)) = false := by
      rw [Bool.and_eq_false_iff]
      rcases not_and_or.mp hf with h | h
      · left; simpa using h
      · right; simpa using h
    simp only [hb, Bool.false_eq_true, if_false, tjudaDate_spec t (by omega), Option.map_some, tjudaJd_spec _ h,
      add_sub_cancel_right, nint_int]

/-- The civil time: the date is the one of the calendar, hour, minute and second make up the time of the day. -/
theorem tmjdInv_spec (t : ℝ) (h : yearStart 1583 ≤ ⌊t⌋) :
    ∃ c : Civil ℝ, tmjdInv t = some c ∧ (c.year, c.month, c.day) = (yearOf ⌊t⌋, monthOf ⌊t⌋, dayOf ⌊t⌋) ∧
      (c.hour : ℝ) * 3600 + c.minute * 60 + c.sec = (t - ⌊t⌋) * 86400 ∧
      0 ≤ c.hour ∧ c.hour < 24 ∧ 0 ≤ c.minute ∧ c.minute < 60 ∧ 0 ≤ c.sec ∧ c.sec < 60 := by
  have f1 : (0 : ℝ) ≤ t - ⌊t⌋ := by have := Int.floor_le t; linarith
  have f2 : t - ⌊t⌋ < (1 : ℝ) := by have := Int.lt_floor_add_one t; linarith
  unfold tmjdInv
  rw [tmjdDay_spec t h]
  obtain ⟨hs, hhs⟩ : ∃ hs, hs = (t - ⌊t⌋) * 24 := ⟨_, rfl⟩
  have hs0 : 0 ≤ hs := by rw [hhs]; linarith
  have e1 : trunc hs = ⌊hs⌋ := by unfold trunc; rw [if_pos hs0]
  have g1 := Int.floor_le hs
  have g2 := Int.lt_floor_add_one hs
  have hm0 : 0 ≤ (hs - ⌊hs⌋) * 60 := by linarith
  have e2 : trunc ((hs - ⌊hs⌋) * 60) = ⌊(hs - ⌊hs⌋) * 60⌋ := by unfold trunc; rw [if_pos hm0]
  have g3 := Int.floor_le ((hs - ⌊hs⌋) * 60)
  have g4 := Int.lt_floor_add_one ((hs - ⌊hs⌋) * 60)
  refine ⟨_, rfl, rfl, ?_, ?_, ?_, ?_, ?_, ?_, ?_⟩
  all_goals simp only [← hhs, e1, e2]
  · linarith
  · exact Int.floor_nonneg.mpr hs0
  · rw [Int.floor_lt]; push_cast; linarith
  · exact Int.floor_nonneg.mpr hm0
  · rw [Int.floor_lt]; push_cast; linarith
  · linarith
  · linarith

end Verif.Mlt
