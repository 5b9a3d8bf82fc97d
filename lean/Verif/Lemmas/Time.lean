import Verif.Model.Time
import Verif.Spec.Calendar
import Mathlib.Tactic.Ring
import Mathlib.Tactic.Linarith
import Mathlib.Tactic.IntervalCases
import Mathlib.Tactic.SplitIfs
import Mathlib.Order.Monotone.Basic
import Mathlib.Algebra.Order.Group.Int
import Mathlib.Order.SuccPred.IntervalSucc

namespace Verif.Time

/-- Supported days: from -4716-03-01 on. -/
def firstDay : Int := -2452946

/-- Julian form: March based year `q` and day `n` of that year. -/
theorem julian_core (f : Int) (hf : 0 ≤ f) :
    f = 365 * ((4 * f + 3) / 1461) + ((4 * f + 3) / 1461) / 4 + ((4 * f + 3) % 1461) / 4 ∧
    0 ≤ ((4 * f + 3) % 1461) / 4 ∧ ((4 * f + 3) % 1461) / 4 ≤ 365 ∧
    (((4 * f + 3) % 1461) / 4 = 365 → ((4 * f + 3) / 1461) % 4 = 3) := by
  refine ⟨by omega, by omega, by omega, by omega⟩

/-- Gregorian correction: century counter in terms of the March based year. -/
theorem greg_core (d : Int) (hd : 2299160 < d) :
    ((4 * d + 274277) / 146097) * 3 / 4 =
      ((4 * (d + 1401 + ((((4 * d + 274277) / 146097) * 3) / 4 - 38)) + 3) / 1461 + 184) / 100
        * 3 / 4 := by
  obtain ⟨c, hc⟩ : ∃ c, c = (4 * d + 274277) / 146097 := ⟨_, rfl⟩
  rw [← hc]
  have h1 : 146097 * c ≤ 4 * d + 274277 := by omega
  have h2 : 4 * d + 274277 < 146097 * c + 146097 := by omega
  clear hc
  have hb : c % 4 = 0 ∨ c % 4 = 1 ∨ c % 4 = 2 ∨ c % 4 = 3 := by omega
  obtain ⟨a, ha⟩ : ∃ a, a = c / 4 := ⟨_, rfl⟩
  rcases hb with hb | hb | hb | hb
  · have : c = 4 * a := by omega
    subst this
    have : 4 * a * 3 / 4 = 3 * a := by omega
    rw [this]
    omega
  · have : c = 4 * a + 1 := by omega
    subst this
    have : (4 * a + 1) * 3 / 4 = 3 * a := by omega
    rw [this]
    omega
  · have : c = 4 * a + 2 := by omega
    subst this
    have : (4 * a + 2) * 3 / 4 = 3 * a + 1 := by omega
    rw [this]
    omega
  · have : c = 4 * a + 3 := by omega
    subst this
    have : (4 * a + 3) * 3 / 4 = 3 * a + 2 := by omega
    rw [this]
    omega

/-- Days before the March based year `q`, Julian. -/
def SJ (q : Int) : Int := 365 * q + q / 4

/-- Days before the March based year `q`, Gregorian. -/
def SG (q : Int) : Int := 365 * q + q / 4 - (q + 184) / 100 * 3 / 4

/-- Year, month and day of the day `n` of the March based year `q`. -/
def yQ (q n : Int) : Int := q - 4716 + (if 306 ≤ n then 1 else 0)
def mQ (n : Int) : Int := if 306 ≤ n then (5 * n + 2) / 153 - 9 else (5 * n + 2) / 153 + 3
def dQ (n : Int) : Int := ((5 * n + 2) % 153) / 5 + 1

theorem SJ_len (q : Int) : SJ (q + 1) - SJ q = if (q + 1) % 4 = 0 then 366 else 365 := by
  unfold SJ; split <;> omega

theorem SG_len (q : Int) : SG (q + 1) - SG q =
    if (q + 1) % 4 = 0 ∧ ((q + 185) % 100 ≠ 0 ∨ (q + 185) % 400 = 100) then 366 else 365 := by
  unfold SG
  by_cases hk : (q + 185) % 100 = 0
  · obtain ⟨k, hk'⟩ : ∃ k, q + 185 = 100 * k := ⟨(q + 185) / 100, by omega⟩
    have e1 : (q + 184) / 100 = k - 1 := by omega
    have e2 : (q + 1 + 184) / 100 = k := by omega
    rw [e1, e2]
    have hkm : k % 4 = 0 ∨ k % 4 = 1 ∨ k % 4 = 2 ∨ k % 4 = 3 := by omega
    split <;> rcases hkm with hkm | hkm | hkm | hkm <;> omega
  · have e2 : (q + 1 + 184) / 100 = (q + 184) / 100 := by
      rw [show q + 1 + 184 = q + 185 by ring]; omega
    rw [e2]
    split <;> omega

theorem greg_len (d q n : Int) (hd : 2299160 < d)
    (hq : q = (4 * (d + 1401 + ((((4 * d + 274277) / 146097) * 3) / 4 - 38)) + 3) / 1461)
    (hn : n = ((4 * (d + 1401 + ((((4 * d + 274277) / 146097) * 3) / 4 - 38)) + 3) % 1461) / 4) :
    n < SG (q + 1) - SG q := by
  have hg := greg_core d hd
  rw [← hq] at hg
  obtain ⟨f, hf⟩ : ∃ f, f = d + 1401 + ((((4 * d + 274277) / 146097) * 3) / 4 - 38) := ⟨_, rfl⟩
  rw [← hf] at hq hn
  obtain ⟨h1, h2, h3, h4⟩ := julian_core f (by omega)
  rw [← hq, ← hn] at h1
  rw [← hn] at h2 h3
  rw [← hn, ← hq] at h4
  unfold SG
  by_cases hn365 : n = 365
  · have hq4 := h4 hn365
    obtain ⟨c, hc⟩ : ∃ c, c = (4 * d + 274277) / 146097 := ⟨_, rfl⟩
    rw [← hc] at hg hf
    have hc1 : 146097 * c ≤ 4 * d + 274277 := by omega
    have hc2 : 4 * d + 274277 < 146097 * c + 146097 := by omega
    clear hc hq hn h4
    -- the century counters of `q` and `q+1`
    by_cases hk : (q + 185) % 100 = 0
    · obtain ⟨k, hk'⟩ : ∃ k, q + 185 = 100 * k := ⟨(q + 185) / 100, by omega⟩
      have e1 : (q + 184) / 100 = k - 1 := by omega
      have e2 : (q + 1 + 184) / 100 = k := by omega
      rw [e1] at hg
      rw [e1, e2]
      have hkm : k % 4 = 0 ∨ k % 4 = 1 ∨ k % 4 = 2 ∨ k % 4 = 3 := by omega
      rcases hkm with hkm | hkm | hkm | hkm <;> omega
    · have e2 : (q + 1 + 184) / 100 = (q + 184) / 100 := by
        rw [show q + 1 + 184 = q + 185 by ring]; omega
      rw [e2]; omega
  · have := SG_len q
    unfold SG at this
    split at this <;> omega

theorem jul_len (f q n : Int) (hf : 0 ≤ f) (hq : q = (4 * f + 3) / 1461)
    (hn : n = ((4 * f + 3) % 1461) / 4) : n < SJ (q + 1) - SJ q := by
  obtain ⟨h1, h2, h3, h4⟩ := julian_core f hf
  rw [← hn, ← hq] at h4
  unfold SJ
  omega

/-- Decomposition of a supported day. -/
theorem decomp (day : Int) (h : firstDay ≤ day) :
    ∃ q n : Int, 0 ≤ q ∧ 0 ≤ n ∧ yearOf day = yQ q n ∧ monthOf day = mQ n ∧ dayOf day = dQ n ∧
      ((day + 2451545 ≤ 2299160 ∧ day + 2451545 + 1401 = SJ q + n ∧ n < SJ (q + 1) - SJ q) ∨
       (2299160 < day + 2451545 ∧ day + 2451545 + 1363 = SG q + n ∧ n < SG (q + 1) - SG q)) := by
  unfold firstDay at h
  obtain ⟨d, hd⟩ : ∃ d, d = day + 2451545 := ⟨_, rfl⟩
  -- the same in terms of Euclidean divisions
  have key : ∀ f : Int, 0 ≤ f → eVal day = 4 * f + 3 →
      yearOf day = yQ ((4 * f + 3) / 1461) (((4 * f + 3) % 1461) / 4) ∧
      monthOf day = mQ (((4 * f + 3) % 1461) / 4) ∧ dayOf day = dQ (((4 * f + 3) % 1461) / 4) ∧
      0 ≤ (4 * f + 3) / 1461 ∧ 0 ≤ ((4 * f + 3) % 1461) / 4 := by
    intro f hf he
    obtain ⟨h1, h2, h3, h4⟩ := julian_core f hf
    have hh : hVal day = 5 * (((4 * f + 3) % 1461) / 4) + 2 := by
      unfold hVal
      rw [he, Int.tmod_eq_emod_of_nonneg (by omega), Int.tdiv_eq_ediv_of_nonneg (by omega)]
    obtain ⟨n, hn⟩ : ∃ n, n = ((4 * f + 3) % 1461) / 4 := ⟨_, rfl⟩
    rw [← hn] at hh h2 h3 ⊢
    have hm : monthOf day = mQ n := by
      unfold monthOf mQ
      rw [hh, Int.tdiv_eq_ediv_of_nonneg (by omega), Int.tmod_eq_emod_of_nonneg (by omega)]
      split <;> omega
    have hmb : 1 ≤ mQ n ∧ mQ n ≤ 12 ∧ (306 ≤ n ↔ mQ n ≤ 2) := by
      unfold mQ; split <;> omega
    refine ⟨?_, hm, ?_, by omega, h2⟩
    · unfold yearOf yQ
      rw [he, hm, Int.tdiv_eq_ediv_of_nonneg (by omega), Int.tdiv_eq_ediv_of_nonneg (by omega)]
      split <;> omega
    · unfold dayOf dQ
      rw [hh, Int.tmod_eq_emod_of_nonneg (by omega), Int.tdiv_eq_ediv_of_nonneg (by omega)]
  by_cases hg : 2299160 < d
  · obtain ⟨f, hf⟩ : ∃ f, f = d + 1401 + ((((4 * d + 274277) / 146097) * 3) / 4 - 38) := ⟨_, rfl⟩
    have he : eVal day = 4 * f + 3 := by
      unfold eVal
      simp only [← hd]
      rw [if_pos hg, Int.tdiv_eq_ediv_of_nonneg (a := 4 * d + 274277) (by omega),
        Int.tdiv_eq_ediv_of_nonneg (by omega), hf]
    obtain ⟨k1, k2, k3, k4, k5⟩ := key f (by omega) he
    refine ⟨_, _, k4, k5, k1, k2, k3, Or.inr ⟨by omega, ?_, ?_⟩⟩
    · have hgc := greg_core d hg
      rw [← hf] at hgc
      have := (julian_core f (by omega)).1
      unfold SG
      omega
    · exact greg_len d _ _ hg (by rw [← hf]) (by rw [← hf])
  · have he : eVal day = 4 * (d + 1401) + 3 := by
      unfold eVal
      simp only [← hd]
      rw [if_neg hg]; omega
    obtain ⟨k1, k2, k3, k4, k5⟩ := key (d + 1401) (by omega) he
    refine ⟨_, _, k4, k5, k1, k2, k3, Or.inl ⟨by omega, ?_, ?_⟩⟩
    · have := (julian_core (d + 1401) (by omega)).1
      unfold SJ
      omega
    · exact jul_len (d + 1401) _ _ (by omega) rfl rfl

theorem SJ_mono : StrictMono SJ := by
  apply strictMono_int_of_lt_succ
  intro q; have := SJ_len q; split at this <;> omega

theorem SG_mono : StrictMono SG := by
  apply strictMono_int_of_lt_succ
  intro q; have := SG_len q; split at this <;> omega

/-- Two decompositions of consecutive days. -/
theorem consecutive (S : Int → Int) (hS : StrictMono S) (q n q' n' : Int)
    (h0 : 0 ≤ n) (h0' : 0 ≤ n') (h1 : n < S (q + 1) - S q) (h1' : n' < S (q' + 1) - S q')
    (h : S q' + n' = S q + n + 1) :
    (q' = q ∧ n' = n + 1) ∨ (q' = q + 1 ∧ n' = 0 ∧ n + 1 = S (q + 1) - S q) := by
  rcases lt_trichotomy q' q with hlt | heq | hgt
  · have := hS.monotone (show q' + 1 ≤ q by omega); omega
  · subst heq; left; omega
  · right
    have hm := hS.monotone (show q + 1 ≤ q' by omega)
    have heq : q' = q + 1 := by
      by_contra hne
      have := hS (show q + 1 < q' by omega)
      omega
    subst heq
    omega

end Verif.Time

namespace Verif.Time

open Verif.Spec

theorem leap_iff (y : Int) : leap y ↔ y % 4 = 0 ∧ (y ≤ 1582 ∨ y % 100 ≠ 0 ∨ y % 400 = 0) := by
  unfold leap
  rw [Int.dvd_iff_emod_eq_zero, Int.dvd_iff_emod_eq_zero, Int.dvd_iff_emod_eq_zero]

theorem step_same (q n : Int) (h0 : 0 ≤ n) (h : n + 1 ≤ 365) (hl : n = 364 → leap (q - 4715))
    (hx : ¬ (q = 6298 ∧ n = 217)) :
    nextDate (yQ q n, mQ n, dQ n) = (yQ q (n + 1), mQ (n + 1), dQ (n + 1)) := by
  obtain ⟨mi, hmi⟩ : ∃ mi, mi = (5 * n + 2) / 153 := ⟨_, rfl⟩
  have hb1 : 153 * mi ≤ 5 * n + 2 := by omega
  have hb2 : 5 * n + 2 < 153 * mi + 153 := by omega
  have hr : (5 * n + 2) % 153 = 5 * n + 2 - 153 * mi := by omega
  have hm0 : 0 ≤ mi := by omega
  have hm1 : mi ≤ 11 := by omega
  have hne : ¬ ((yQ q n, mQ n, dQ n) = ((1582 : Int), (10 : Int), (4 : Int))) := by
    intro he
    simp only [Prod.mk.injEq] at he
    obtain ⟨e1, e2, e3⟩ := he
    unfold yQ at e1; unfold mQ at e2; unfold dQ at e3
    rw [hr] at e3
    split at e1 <;> split at e2 <;> omega
  have hcase : (5 * (n + 1) + 2) / 153 = mi ∧ 5 * n + 2 - 153 * mi < 148 ∨
      (5 * (n + 1) + 2) / 153 = mi + 1 ∧ 148 ≤ 5 * n + 2 - 153 * mi := by omega
  rcases hcase with ⟨hc, hlt⟩ | ⟨hc, hge⟩
  · -- the same month
    have hr' : (5 * (n + 1) + 2) % 153 = 5 * n + 7 - 153 * mi := by omega
    have hdd : dQ (n + 1) = dQ n + 1 := by unfold dQ; rw [hr, hr']; omega
    have hsame : (306 ≤ n + 1) ↔ (306 ≤ n) := by omega
    have hyy : yQ q (n + 1) = yQ q n := by unfold yQ; simp only [hsame]
    have hmm : mQ (n + 1) = mQ n := by unfold mQ; simp only [hsame, hc, ← hmi]
    have hlen : dQ n < monthLength (yQ q n) (mQ n) := by
      by_cases h364 : n = 364
      · have hL := hl h364
        subst h364
        have e1 : yQ q 364 = q - 4715 := by unfold yQ; rw [if_pos (by omega)]; omega
        have e2 : mQ 364 = 2 := by decide
        have e3 : dQ 364 = 28 := by decide
        rw [e1, e2, e3]; unfold monthLength; rw [if_pos rfl, if_pos hL]; omega
      · have : 1 ≤ dQ n := by unfold dQ; omega
        have hdn : dQ n = (5 * n + 2 - 153 * mi) / 5 + 1 := by unfold dQ; rw [hr]
        have hmn : mQ n = if 306 ≤ n then mi - 9 else mi + 3 := by unfold mQ; rw [← hmi]
        rw [hdn, hmn]
        unfold monthLength
        by_cases h306 : 306 ≤ n
        · simp only [if_pos h306]; split_ifs <;> omega
        · simp only [if_neg h306]; split_ifs <;> omega
    unfold nextDate
    simp only [if_neg hne, if_pos hlen, hyy, hmm, hdd]
  · have hr' : (5 * (n + 1) + 2) % 153 = 5 * n + 7 - 153 * (mi + 1) := by omega
    have hd1 : dQ (n + 1) = 1 := by unfold dQ; rw [hr']; omega
    have hdn : dQ n = (5 * n + 2 - 153 * mi) / 5 + 1 := by unfold dQ; rw [hr]
    have hmn : mQ n = if 306 ≤ n then mi - 9 else mi + 3 := by unfold mQ; rw [← hmi]
    have hmn' : mQ (n + 1) = if 306 ≤ n + 1 then mi + 1 - 9 else mi + 1 + 3 := by
      unfold mQ; rw [hc]
    have hlen : ¬ dQ n < monthLength (yQ q n) (mQ n) := by
      rw [hdn, hmn]
      unfold monthLength
      clear hr hr' hd1 hmn hmn' hdn hne hx hl hmi hc
      by_cases h306 : 306 ≤ n
      · simp only [if_pos h306]
        have : mi = 10 := by omega
        subst this
        split_ifs <;> omega
      · simp only [if_neg h306]; interval_cases mi <;> split_ifs <;> omega
    unfold nextDate
    simp only [if_neg hne, if_neg hlen]
    by_cases hdec : n = 305
    · subst hdec
      have : mi = 9 := by omega
      subst this
      rw [hmn', hd1, hmn]
      simp [yQ]
    · have hsame : (306 ≤ n + 1) ↔ (306 ≤ n) := by omega
      have hyy : yQ q (n + 1) = yQ q n := by unfold yQ; simp only [hsame]
      have hm12 : mQ n < 12 := by rw [hmn]; split <;> omega
      rw [if_pos hm12, hyy, hd1, hmn', hmn]
      simp only [hsame]
      split <;> simp <;> omega

theorem step_next (q n : Int)
    (h : n = 364 ∧ ¬ leap (q - 4715) ∨ n = 365 ∧ leap (q - 4715)) :
    nextDate (yQ q n, mQ n, dQ n) = (yQ (q + 1) 0, mQ 0, dQ 0) := by
  have e0 : mQ 0 = 3 ∧ dQ 0 = 1 ∧ yQ (q + 1) 0 = q - 4715 := by
    refine ⟨by decide, by decide, ?_⟩
    unfold yQ; rw [if_neg (by omega)]; omega
  rw [e0.1, e0.2.1, e0.2.2]
  rcases h with ⟨rfl, hl⟩ | ⟨rfl, hl⟩
  · have e1 : yQ q 364 = q - 4715 := by unfold yQ; rw [if_pos (by omega)]; omega
    have e2 : mQ 364 = 2 := by decide
    have e3 : dQ 364 = 28 := by decide
    rw [e1, e2, e3]
    unfold nextDate monthLength
    simp [hl]
  · have e1 : yQ q 365 = q - 4715 := by unfold yQ; rw [if_pos (by omega)]; omega
    have e2 : mQ 365 = 2 := by decide
    have e3 : dQ 365 = 29 := by decide
    rw [e1, e2, e3]
    unfold nextDate monthLength
    simp [hl]

theorem yearStart_eq (y : Int) (hy : -4799 ≤ y) :
    yearStart y = if 1582 < y then SG (y + 4715) + 306 - 2451545 - 1363
      else SJ (y + 4715) + 306 - 2451545 - 1401 := by
  unfold yearStart SG SJ
  simp only []
  rw [Int.tdiv_eq_ediv_of_nonneg (by omega), Int.tdiv_eq_ediv_of_nonneg (by omega),
    Int.tdiv_eq_ediv_of_nonneg (by omega)]
  by_cases h : 1582 < y
  · rw [if_pos h, if_pos h]
    have hcent : (y + 4715 + 184) / 100 = (y + 4799) / 100 + 1 := by omega
    rw [hcent]
    have h4 : ((y + 4799) / 100 + 1) * 3 / 4 = (y + 4799) / 100 - (y + 4799) / 100 / 4 := by omega
    rw [h4, Int.ediv_ediv_of_nonneg (by omega)]
    omega
  · rw [if_neg h, if_neg h]
    omega

end Verif.Time
