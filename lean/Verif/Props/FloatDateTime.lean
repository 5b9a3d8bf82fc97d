/-
C71: `datetime` objects and epochs of the MMA products in double precision.
-/
import Verif.Props.DateTime
import Verif.Props.Mma
import Verif.Props.FloatTime

set_option linter.unusedSectionVars false

namespace Verif.Props

open Verif.DateTime Verif.FloatTime Verif.Spec

theorem float_total (y : Int) (h1 : 1 ≤ y) :
    micros ⟨y + 1, 1, 1, 0, 0, 0, 0⟩ - micros ⟨y, 1, 1, 0, 0, 0, 0⟩ = 31536000000000 ∨
    micros ⟨y + 1, 1, 1, 0, 0, 0, 0⟩ - micros ⟨y, 1, 1, 0, 0, 0, 0⟩ = 31622400000000 := by
  have hz : ∀ y, daysBeforeMonth y 1 = 0 := by intro y; unfold daysBeforeMonth; norm_num
  unfold micros toOrdinal
  simp only [hz]
  omega

/-- Elapsed and total seconds of the year. -/
theorem float_elapsed (f : Fields) (hf : GregorianTime f) (h1 : 1 ≤ f.year) (h2 : f.year ≤ 9998) :
    ∃ S T : ℝ, (T = 31536000 ∨ T = 31622400) ∧ 0 ≤ S ∧ S < T ∧
      ((micros f - micros ⟨f.year, 1, 1, 0, 0, 0, 0⟩ : Int) : ℝ) / 1000000 = S ∧
      ((micros ⟨f.year + 1, 1, 1, 0, 0, 0, 0⟩ - micros ⟨f.year, 1, 1, 0, 0, 0, 0⟩ : Int) : ℝ) / 1000000 = T ∧
      datetimeToDecimalYear (K := ℝ) (.naive f) = .ok ((f.year : ℝ) + S / T) ∧
      ∀ rnd : ℝ → ℝ, datetimeF rnd f = .ok (rnd ((f.year : ℝ) + rnd (rnd S / rnd T))) := by
  obtain ⟨dy, e1, e2, e3⟩ := C65_any_year (K := ℝ) f hf h1 h2
  have n1 : newYear f.year = .ok ⟨f.year, 1, 1, 0, 0, 0, 0⟩ := if_pos ⟨by omega, by omega⟩
  have n2 : newYear (f.year + 1) = .ok ⟨f.year + 1, 1, 1, 0, 0, 0, 0⟩ := if_pos ⟨by omega, by omega⟩
  have hT : ((micros ⟨f.year + 1, 1, 1, 0, 0, 0, 0⟩ - micros ⟨f.year, 1, 1, 0, 0, 0, 0⟩ : Int) : ℝ) / 1000000 = 31536000 ∨
      ((micros ⟨f.year + 1, 1, 1, 0, 0, 0, 0⟩ - micros ⟨f.year, 1, 1, 0, 0, 0, 0⟩ : Int) : ℝ) / 1000000 = 31622400 := by
    rcases float_total f.year h1 with h | h <;> rw [h]
    · left; norm_num
    · right; norm_num
  have hd : datetimeToDecimalYear (K := ℝ) (.naive f) = .ok ((f.year : ℝ) +
      ((micros f - micros ⟨f.year, 1, 1, 0, 0, 0, 0⟩ : Int) : ℝ) / 1000000 /
        (((micros ⟨f.year + 1, 1, 1, 0, 0, 0, 0⟩ - micros ⟨f.year, 1, 1, 0, 0, 0, 0⟩ : Int) : ℝ) / 1000000)) := by
    simp only [datetimeToDecimalYear, n1, n2]
    rfl
  have hr : ∀ rnd : ℝ → ℝ, datetimeF rnd f = .ok (rnd ((f.year : ℝ) +
      rnd (rnd (((micros f - micros ⟨f.year, 1, 1, 0, 0, 0, 0⟩ : Int) : ℝ) / 1000000) /
        rnd (((micros ⟨f.year + 1, 1, 1, 0, 0, 0, 0⟩ - micros ⟨f.year, 1, 1, 0, 0, 0, 0⟩ : Int) : ℝ) / 1000000)))) := by
    intro rnd
    simp only [datetimeF, n1, n2]
    rfl
  rw [hd] at e1
  have e1' := Except.ok.inj e1
  generalize ((micros f - micros ⟨f.year, 1, 1, 0, 0, 0, 0⟩ : Int) : ℝ) / 1000000 = S at *
  generalize ((micros ⟨f.year + 1, 1, 1, 0, 0, 0, 0⟩ - micros ⟨f.year, 1, 1, 0, 0, 0, 0⟩ : Int) : ℝ) / 1000000 = T at *
  have hTp : 0 < T := by rcases hT with rfl | rfl <;> norm_num
  refine ⟨S, T, hT, ?_, ?_, rfl, rfl, hd, hr⟩
  · have : 0 ≤ S / T := by linarith
    by_contra hc
    push Not at hc
    have := div_neg_of_neg_of_pos hc hTp
    linarith
  · have : S / T < 1 := by linarith
    exact (div_lt_one hTp).mp this

/-- C71: without rounding. -/
theorem C71_datetime_exact (f : Fields) : datetimeF (K := ℝ) id f = datetimeToDecimalYear (.naive f) := rfl

/-- C71: without rounding. -/
theorem C71_epoch_exact (r : ℝ) : Verif.Mma.rawToMjd [r] 31 = some [epochF id r] := rfl

section
variable {rnd : ℝ → ℝ} (R : Nearest rnd)
include R

theorem float_seconds {T : ℝ} (h : T = 31536000 ∨ T = 31622400) : T ∈ F64 := by
  rcases h with rfl | rfl
  · simpa using F64.int (n := 31536000) (by norm_num)
  · simpa using F64.int (n := 31622400) (by norm_num)

/-- C71: the decimal year of a `datetime` object in double precision: within the closed year,
with a small error. -/
theorem C71_datetime (f : Fields) (hf : GregorianTime f) (h1 : 1 ≤ f.year) (h2 : f.year ≤ 9998) :
    ∃ e d : ℝ, datetimeToDecimalYear (.naive f) = .ok e ∧ datetimeF rnd f = .ok d ∧
      (f.year : ℝ) ≤ d ∧ d ≤ f.year + 1 ∧ |d - e| ≤ 2 ^ (-40 : ℤ) + 2 ^ (-51 : ℤ) := by
  obtain ⟨S, T, hT, s0, s1, -, -, hd, hr⟩ := float_elapsed f hf h1 h2
  have hTp : 0 < T := by rcases hT with rfl | rfl <;> norm_num
  have hTl : 31536000 ≤ T ∧ T ≤ 31622400 := by rcases hT with rfl | rfl <;> norm_num
  have hTF := float_seconds R hT
  refine ⟨_, _, hd, hr rnd, ?_⟩
  rw [R.fixed hTF]
  have r0 : 0 ≤ rnd S := R.nonneg s0
  have r1 : rnd S ≤ T := R.le_of_le hTF s1.le
  have q0 : 0 ≤ rnd S / T := div_nonneg r0 hTp.le
  have q1 : rnd S / T ≤ 1 := (div_le_one hTp).mpr r1
  have p0 : 0 ≤ rnd (rnd S / T) := R.nonneg q0
  have p1 : rnd (rnd S / T) ≤ 1 := R.le_of_le F64.one q1
  have y0 : (1 : ℝ) ≤ f.year := by exact_mod_cast h1
  have y1 : (f.year : ℝ) ≤ 9998 := by exact_mod_cast h2
  refine ⟨R.ge_of_ge (F64.int (by rw [abs_le]; constructor <;> omega)) (by linarith), ?_, ?_⟩
  · refine R.le_of_le ?_ (by linarith)
    have := F64.int (n := f.year + 1) (by rw [abs_le]; constructor <;> omega)
    push_cast at this
    exact this
  · have e1 := R.err (x := S) (k := 25) (by norm_num) (by rw [abs_of_nonneg s0]; norm_num; linarith)
    have e2 := R.err (x := rnd S / T) (k := 0) (by norm_num) (by rw [abs_of_nonneg q0]; norm_num; linarith)
    have e3 := R.err (x := (f.year : ℝ) + rnd (rnd S / T)) (k := 14) (by norm_num)
      (by rw [abs_of_nonneg (by linarith)]; norm_num; linarith)
    have e4 : |rnd S / T - S / T| ≤ 2 ^ (-53 : ℤ) := by
      rw [← sub_div, abs_div, abs_of_pos hTp, div_le_iff₀ hTp]
      refine e1.trans ?_
      norm_num
      linarith
    have : rnd ((f.year : ℝ) + rnd (rnd S / T)) - ((f.year : ℝ) + S / T) =
        (rnd ((f.year : ℝ) + rnd (rnd S / T)) - ((f.year : ℝ) + rnd (rnd S / T))) +
          ((rnd (rnd S / T) - rnd S / T) + (rnd S / T - S / T)) := by ring
    rw [this]
    refine (abs_add_le _ _).trans ((add_le_add e3 ((abs_add_le _ _).trans (add_le_add e2 e4))).trans ?_)
    norm_num

/-- C71: the last microsecond of 1999 has the decimal year 2000 in double precision. -/
theorem C71_datetime_rounds_up : GregorianTime ⟨1999, 12, 31, 23, 59, 59, 999999⟩ ∧
    datetimeF rnd ⟨1999, 12, 31, 23, 59, 59, 999999⟩ = .ok 2000 := by
  have hg : GregorianTime ⟨1999, 12, 31, 23, 59, 59, 999999⟩ := by constructor <;> simp
  refine ⟨hg, ?_⟩
  obtain ⟨S, T, hT, s0, s1, hS, hT2, hd, hr⟩ := float_elapsed _ hg (by norm_num) (by norm_num)
  have hT' : T = 31536000 := by
    rw [← hT2, show micros ⟨(1999 : Int) + 1, 1, 1, 0, 0, 0, 0⟩ - micros ⟨1999, 1, 1, 0, 0, 0, 0⟩ = 31536000000000 by decide]
    norm_num
  have hS' : S = 31536000 - 1 / 1000000 := by
    rw [← hS, show micros ⟨1999, 12, 31, 23, 59, 59, 999999⟩ - micros ⟨1999, 1, 1, 0, 0, 0, 0⟩ = 31535999999999 by decide]
    norm_num
  rw [hr rnd]
  congr 1
  have hTF := float_seconds R hT
  rw [R.fixed hTF]
  have r0 : 0 ≤ rnd S := R.nonneg s0
  have r1 : rnd S ≤ T := R.le_of_le hTF s1.le
  have hTp : 0 < T := by rw [hT']; norm_num
  have q0 : 0 ≤ rnd S / T := div_nonneg r0 hTp.le
  have q1 : rnd S / T ≤ 1 := (div_le_one hTp).mpr r1
  have p1 : rnd (rnd S / T) ≤ 1 := R.le_of_le F64.one q1
  have e1 := R.err (x := S) (k := 25) (by norm_num) (by rw [abs_of_nonneg s0]; norm_num; linarith)
  have e2 := R.err (x := rnd S / T) (k := 0) (by norm_num) (by rw [abs_of_nonneg q0]; norm_num; linarith)
  have hq : 1 - 4 / 10 ^ 14 ≤ rnd (rnd S / T) := by
    have a1 := (abs_le.mp e1).1
    have a2 := (abs_le.mp e2).1
    have : (1 : ℝ) - 35 / 10 ^ 15 ≤ rnd S / T := by
      rw [le_div_iff₀ hTp, hT']
      rw [hS'] at a1 ⊢
      norm_num only at a1 ⊢
      linarith
    norm_num only at a2 this ⊢
    linarith
  have h2000 : (2000 : ℝ) ∈ F64 := by simpa using F64.int (n := 2000) (by norm_num)
  have hn := R.near (((1999 : Int) : ℝ) + rnd (rnd S / T)) 2000 h2000
  have hm := R.mem (((1999 : Int) : ℝ) + rnd (rnd S / T))
  generalize rnd (rnd S / T) = q at *
  generalize rnd (((1999 : Int) : ℝ) + q) = D at *
  norm_num only at hn hq
  rw [abs_of_nonneg (show (0 : ℝ) ≤ 2000 - (1999 + q) by linarith)] at hn
  obtain ⟨n1, n2⟩ := abs_le.mp hn
  refine F64.eq_of_close (k := 10) hm h2000 ?_ (by norm_num) ?_
  · rw [abs_of_nonneg (by linarith)]; norm_num; linarith
  · norm_num only
    rw [abs_lt]
    constructor <;> linarith

/-- C71: epochs of the MMA products at least one millisecond apart stay apart and in the same
order when converted in double precision (358 years around 2000). -/
theorem C71_epochs (a b : ℝ) (ha : |a - 63113904000000| ≤ 86400000 * 2 ^ 17)
    (hb : |b - 63113904000000| ≤ 86400000 * 2 ^ 17) (h : a + 1 ≤ b) : epochF rnd a < epochF rnd b := by
  have hp0 : (1 : ℝ) / 86400000 ≤ 2 ^ (-26 : ℤ) := by norm_num
  have hp := R.err (x := (1 : ℝ) / 86400000) (k := -26) (by norm_num) (by rw [abs_of_pos (by norm_num)]; exact hp0)
  have key : ∀ x : ℝ, |x - 63113904000000| ≤ 86400000 * 2 ^ 17 →
      |epochF rnd x - (x - 63113904000000) * rnd (1 / 86400000)| ≤ 1 / 10 ^ 10 := by
    intro x hx
    have e1 := R.err (x := x - 63113904000000) (k := 44) (by norm_num) (by refine hx.trans ?_; norm_num)
    unfold epochF
    generalize rnd (1 / 86400000) = p at *
    obtain ⟨p1, p2⟩ := abs_le.mp hp
    norm_num only at p1 p2
    obtain ⟨x1, x2⟩ := abs_le.mp hx
    obtain ⟨d1, d2⟩ := abs_le.mp e1
    generalize x - 63113904000000 = d at *
    generalize rnd d = d' at *
    norm_num only at x1 x2 d1 d2
    have hp3 : 0 ≤ p := by linarith
    have e2 := R.err (x := d' * p) (k := 18) (by norm_num) (by
      rw [abs_mul, abs_of_nonneg hp3]
      have : |d'| ≤ 11324620800001 := by rw [abs_le]; constructor <;> linarith
      calc |d'| * p ≤ 11324620800001 * (1 / 80000000) := mul_le_mul this (by linarith) hp3 (by norm_num)
        _ ≤ _ := by norm_num)
    have e3 : |d' * p - d * p| ≤ 1 / 10 ^ 3 * (1 / 80000000) := by
      rw [← sub_mul, abs_mul, abs_of_nonneg hp3]
      refine mul_le_mul (e1.trans (by norm_num)) (by linarith) hp3 (by norm_num)
    have : rnd (d' * p) - d * p = (rnd (d' * p) - d' * p) + (d' * p - d * p) := by ring
    rw [this]
    refine (abs_add_le _ _).trans ((add_le_add e2 e3).trans ?_)
    norm_num
  have ka := key a ha
  have kb := key b hb
  generalize rnd (1 / 86400000) = p at *
  obtain ⟨p1, p2⟩ := abs_le.mp hp
  norm_num only at p1 p2
  have hpl : 1 / 100000000 ≤ p := by linarith
  obtain ⟨-, a2⟩ := abs_le.mp ka
  obtain ⟨b1, -⟩ := abs_le.mp kb
  have : (1 : ℝ) / 100000000 ≤ (b - a) * p := by nlinarith
  norm_num only at a2 b1 this
  nlinarith

end

/-- The hypotheses of `C71_epochs` are met. -/
example : ∃ rnd : ℝ → ℝ, Nearest rnd ∧ epochF rnd 63713904000000 < epochF rnd 63713904000001 := by
  obtain ⟨rnd, R⟩ := Nearest.exists
  refine ⟨rnd, R, C71_epochs R _ _ ?_ ?_ (by norm_num)⟩
  · rw [abs_le]; constructor <;> norm_num
  · rw [abs_le]; constructor <;> norm_num

end Verif.Props
