/-
Specification of the arithmetic in double precision: the numbers of the binary64 format (with
the subnormal numbers, without an upper limit of the exponent: overflow is not modelled) and
rounding to a nearest of them, with any rule for ties.
-/
import Mathlib.Data.Real.Basic
import Mathlib.Algebra.Order.Round
import Mathlib.Algebra.Order.Archimedean.Real.Basic
import Mathlib.Data.Int.Interval
import Mathlib.Data.Int.Log
import Mathlib.Algebra.Order.Field.Power
import Mathlib.Data.Set.Finite.Lemmas
import Mathlib.Tactic.Ring
import Mathlib.Tactic.Linarith
import Mathlib.Tactic.NormNum
import Mathlib.Tactic.Positivity
import Mathlib.Tactic.FieldSimp

namespace Verif.Spec

/-- Numbers of the binary64 format: 53 bits, the exponent from -1074. -/
def F64 : Set ℝ := {x | ∃ m e : ℤ, |m| ≤ 2 ^ 53 ∧ -1074 ≤ e ∧ x = m * (2 : ℝ) ^ e}

/-- `rnd` rounds to a nearest number of the format. -/
structure Nearest (rnd : ℝ → ℝ) : Prop where
  mem : ∀ x, rnd x ∈ F64
  near : ∀ x, ∀ y ∈ F64, |rnd x - x| ≤ |y - x|

theorem F64.int {n : ℤ} (h : |n| ≤ 2 ^ 53) : (n : ℝ) ∈ F64 := ⟨n, 0, h, by norm_num, by simp⟩

theorem F64.zero : (0 : ℝ) ∈ F64 := by simpa using F64.int (n := 0) (by norm_num)

theorem F64.one : (1 : ℝ) ∈ F64 := by simpa using F64.int (n := 1) (by norm_num)

theorem F64.neg {x : ℝ} (h : x ∈ F64) : -x ∈ F64 := by
  obtain ⟨m, e, h1, h2, rfl⟩ := h
  exact ⟨-m, e, by rwa [abs_neg], h2, by push_cast; ring⟩

/-- The numbers of the format are multiples of the least one. -/
theorem F64.multiple {x : ℝ} (h : x ∈ F64) : ∃ n : ℤ, x = n * (2 : ℝ) ^ (-1074 : ℤ) := by
  obtain ⟨m, e, h1, h2, rfl⟩ := h
  obtain ⟨k, hk⟩ : ∃ k : ℕ, e + 1074 = k := ⟨(e + 1074).toNat, by omega⟩
  refine ⟨m * 2 ^ k, ?_⟩
  have : e = (k : ℤ) + (-1074) := by omega
  rw [this, zpow_add₀ (by norm_num)]
  push_cast
  rw [zpow_natCast]
  ring

/-- Larger numbers are multiples of larger powers of two. -/
theorem F64.multiple_of_lt {x : ℝ} {k : ℤ} (h : x ∈ F64) (hk : (2 : ℝ) ^ k < |x|) :
    ∃ n : ℤ, x = n * (2 : ℝ) ^ (k - 52) := by
  obtain ⟨m, e, h1, h2, rfl⟩ := h
  have hp : (0 : ℝ) < 2 ^ e := by positivity
  have he : k - 53 < e := by
    by_contra hc
    push Not at hc
    have : (2 : ℝ) ^ e ≤ 2 ^ (k - 53) := zpow_le_zpow_right₀ (by norm_num) hc
    have hm : |(m : ℝ)| ≤ 2 ^ 53 := by exact_mod_cast h1
    rw [abs_mul, abs_of_pos hp] at hk
    have h3 : |(m : ℝ)| * 2 ^ e ≤ 2 ^ 53 * 2 ^ (k - 53) := mul_le_mul hm this hp.le (by positivity)
    have h4 : (2 : ℝ) ^ 53 * 2 ^ (k - 53) = 2 ^ k := by
      rw [← zpow_natCast, ← zpow_add₀ (by norm_num)]
      norm_num
    linarith
  obtain ⟨j, hj⟩ : ∃ j : ℕ, e - (k - 52) = j := ⟨(e - (k - 52)).toNat, by omega⟩
  refine ⟨m * 2 ^ j, ?_⟩
  have : e = (j : ℤ) + (k - 52) := by omega
  rw [this, zpow_add₀ (by norm_num)]
  push_cast
  rw [zpow_natCast]
  ring

/-- Two numbers closer than the spacing are equal. -/
theorem F64.eq_of_close {x y : ℝ} {k : ℤ} (hx : x ∈ F64) (hy : y ∈ F64) (h1 : (2 : ℝ) ^ k < |x|)
    (h2 : (2 : ℝ) ^ k < |y|) (h : |x - y| < 2 ^ (k - 52)) : x = y := by
  obtain ⟨a, rfl⟩ := F64.multiple_of_lt hx h1
  obtain ⟨b, rfl⟩ := F64.multiple_of_lt hy h2
  have hp : (0 : ℝ) < 2 ^ (k - 52) := by positivity
  rw [← sub_mul, abs_mul, abs_of_pos hp] at h
  have : |(a : ℝ) - b| < 1 := by
    by_contra hc
    push Not at hc
    nlinarith
  have : |a - b| < 1 := by exact_mod_cast this
  rw [Int.abs_lt_one_iff] at this
  rw [show a = b by omega]

theorem F64.finite (b : ℝ) : {x | x ∈ F64 ∧ |x| ≤ b}.Finite := by
  have hp : (0 : ℝ) < 2 ^ (-1074 : ℤ) := by positivity
  refine Set.Finite.subset ((Set.finite_Icc (-⌈b / 2 ^ (-1074 : ℤ)⌉) ⌈b / 2 ^ (-1074 : ℤ)⌉).image
    (fun n : ℤ => (n : ℝ) * (2 : ℝ) ^ (-1074 : ℤ))) ?_
  rintro x ⟨hx, hb⟩
  obtain ⟨n, rfl⟩ := F64.multiple hx
  refine ⟨n, ?_, rfl⟩
  rw [abs_mul, abs_of_pos hp, ← le_div_iff₀ hp] at hb
  have h1 := abs_le.mp hb
  have h2 := Int.le_ceil (b / 2 ^ (-1074 : ℤ))
  constructor
  · have : ((-⌈b / 2 ^ (-1074 : ℤ)⌉ : ℤ) : ℝ) ≤ n := by push_cast; linarith [h1.1]
    exact_mod_cast this
  · have : (n : ℝ) ≤ (⌈b / 2 ^ (-1074 : ℤ)⌉ : ℤ) := by linarith [h1.2]
    exact_mod_cast this

/-- There is such a rounding. -/
theorem Nearest.exists : ∃ rnd, Nearest rnd := by
  have h : ∀ x : ℝ, ∃ y, y ∈ F64 ∧ ∀ z ∈ F64, |y - x| ≤ |z - x| := by
    intro x
    have hf := F64.finite (2 * |x|)
    have hne : {y | y ∈ F64 ∧ |y| ≤ 2 * |x|}.Nonempty := ⟨0, F64.zero, by simp⟩
    obtain ⟨y, hy, hmin⟩ := Set.exists_min_image _ (fun z => |z - x|) hf hne
    refine ⟨y, hy.1, fun z hz => ?_⟩
    by_cases hb : |z| ≤ 2 * |x|
    · exact hmin z ⟨hz, hb⟩
    · have h0 := hmin 0 ⟨F64.zero, by simp⟩
      simp only [zero_sub, abs_neg] at h0
      have : |z| - |x| ≤ |z - x| := abs_sub_abs_le_abs_sub z x
      linarith
  choose rnd h1 h2 using h
  exact ⟨rnd, h1, h2⟩

namespace Nearest

variable {rnd : ℝ → ℝ} (R : Nearest rnd)
include R

theorem fixed {x : ℝ} (h : x ∈ F64) : rnd x = x := by
  have := R.near x x h
  rw [sub_self, abs_zero] at this
  linarith [abs_nonneg (rnd x - x), abs_eq_zero.mp (le_antisymm this (abs_nonneg _))]

theorem mono {x y : ℝ} (h : x ≤ y) : rnd x ≤ rnd y := by
  rcases eq_or_lt_of_le h with rfl | h
  · exact le_rfl
  by_contra hc
  push Not at hc
  have h1 := R.near x _ (R.mem y)
  have h2 := R.near y _ (R.mem x)
  have a1 : (rnd x - x) ^ 2 ≤ (rnd y - x) ^ 2 := sq_le_sq.mpr h1
  have a2 : (rnd y - y) ^ 2 ≤ (rnd x - y) ^ 2 := sq_le_sq.mpr h2
  nlinarith

theorem int {n : ℤ} (h : |n| ≤ 2 ^ 53) : rnd n = n := R.fixed (F64.int h)

theorem zero : rnd 0 = 0 := R.fixed F64.zero

theorem one : rnd 1 = 1 := R.fixed F64.one

theorem nonneg {x : ℝ} (h : 0 ≤ x) : 0 ≤ rnd x := by
  rw [← R.zero]
  exact R.mono h

theorem le_of_le {x b : ℝ} (hb : b ∈ F64) (h : x ≤ b) : rnd x ≤ b := by
  rw [← R.fixed hb]
  exact R.mono h

theorem ge_of_ge {x b : ℝ} (hb : b ∈ F64) (h : b ≤ x) : b ≤ rnd x := by
  rw [← R.fixed hb]
  exact R.mono h

/-- Half of the spacing of the numbers of the format up to a power of two. -/
theorem err {x : ℝ} {k : ℤ} (hk : -1021 ≤ k) (h : |x| ≤ 2 ^ k) : |rnd x - x| ≤ 2 ^ (k - 54) := by
  have hp : (0 : ℝ) < 2 ^ (k - 53) := by positivity
  set m : ℤ := round (x / 2 ^ (k - 53)) with hm
  have hr := abs_sub_round (x / (2 : ℝ) ^ (k - 53))
  have hmem : (m : ℝ) * 2 ^ (k - 53) ∈ F64 := by
    refine ⟨m, k - 53, ?_, by omega, rfl⟩
    have hx : |x / 2 ^ (k - 53)| ≤ 2 ^ 53 := by
      rw [abs_div, abs_of_pos hp, div_le_iff₀ hp]
      refine h.trans (le_of_eq ?_)
      rw [← zpow_natCast, ← zpow_add₀ (by norm_num)]
      norm_num
    obtain ⟨h1, h2⟩ := abs_le.mp hx
    obtain ⟨r1, r2⟩ := abs_le.mp hr
    rw [← hm] at r1 r2
    rw [abs_le]
    constructor
    · have : ((-(2 ^ 53) - 1 : ℤ) : ℝ) < m := by push_cast; linarith
      have := Int.cast_lt.mp this
      omega
    · have : (m : ℝ) < ((2 ^ 53 + 1 : ℤ) : ℝ) := by push_cast; linarith
      have := Int.cast_lt.mp this
      omega
  refine (R.near x _ hmem).trans ?_
  have e : (m : ℝ) * 2 ^ (k - 53) - x = - ((x / 2 ^ (k - 53) - m) * 2 ^ (k - 53)) := by
    field_simp
    ring
  rw [e, abs_neg, abs_mul, abs_of_pos hp]
  calc |x / 2 ^ (k - 53) - m| * 2 ^ (k - 53) ≤ 1 / 2 * 2 ^ (k - 53) := by
        exact mul_le_mul_of_nonneg_right hr hp.le
    _ = 2 ^ (k - 54) := by
        rw [show k - 53 = k - 54 + 1 by ring, zpow_add₀ (by norm_num)]
        ring

/-- Relative error, with the absolute error of the subnormal numbers. -/
theorem rel (x : ℝ) : |rnd x - x| ≤ 2 ^ (-53 : ℤ) * |x| + 2 ^ (-1075 : ℤ) := by
  by_cases h : |x| ≤ 2 ^ (-1021 : ℤ)
  · have := R.err le_rfl h
    norm_num only at this ⊢
    have : 0 ≤ |x| := abs_nonneg x
    nlinarith
  · push Not at h
    have h0 : 0 < |x| := lt_trans (by positivity) h
    set k := Int.log 2 |x| with hk
    have h1 : (2 : ℝ) ^ k ≤ |x| := by
      have := Int.zpow_log_le_self (b := 2) (by norm_num) h0
      exact_mod_cast this
    have h2 : |x| < 2 ^ (k + 1) := by
      have := Int.lt_zpow_succ_log_self (b := 2) (by norm_num) |x|
      exact_mod_cast this
    have h3 : -1021 ≤ k + 1 := by
      by_contra hc
      push Not at hc
      have : (2 : ℝ) ^ (k + 1) ≤ 2 ^ (-1021 : ℤ) := zpow_le_zpow_right₀ (by norm_num) hc.le
      linarith
    have h4 := R.err h3 h2.le
    have e : (2 : ℝ) ^ (k + 1 - 54) = 2 ^ (-53 : ℤ) * 2 ^ k := by
      rw [← zpow_add₀ (by norm_num)]
      congr 1
      ring
    rw [e] at h4
    have : (2 : ℝ) ^ (-53 : ℤ) * 2 ^ k ≤ 2 ^ (-53 : ℤ) * |x| := mul_le_mul_of_nonneg_left h1 (by positivity)
    have : (0 : ℝ) < 2 ^ (-1075 : ℤ) := by positivity
    linarith

/-- The difference of two different numbers is not rounded to zero. -/
theorem sub_pos {x y : ℝ} (hx : x ∈ F64) (hy : y ∈ F64) (h : x < y) : 0 < rnd (y - x) := by
  obtain ⟨a, rfl⟩ := F64.multiple hx
  obtain ⟨b, rfl⟩ := F64.multiple hy
  have hp : (0 : ℝ) < 2 ^ (-1074 : ℤ) := by positivity
  have hab : a < b := by
    have := lt_of_mul_lt_mul_right h hp.le
    exact_mod_cast this
  have h1 : (2 : ℝ) ^ (-1074 : ℤ) ∈ F64 := ⟨1, -1074, by norm_num, le_rfl, by simp⟩
  refine lt_of_lt_of_le hp (R.ge_of_ge h1 ?_)
  have : (1 : ℝ) ≤ b - a := by
    have : (a : ℝ) + 1 ≤ b := by exact_mod_cast hab
    linarith
  rw [← sub_mul]
  nlinarith

end Nearest

end Verif.Spec
