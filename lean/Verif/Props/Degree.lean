/-
Property C50: the degree derived from the number of the coefficients.
-/
import Verif.Model.Arrays
import Mathlib.Analysis.SpecialFunctions.Sqrt
import Mathlib.Algebra.Order.Floor.Ring
import Mathlib.Tactic.NormNum
import Mathlib.Tactic.Linarith

set_option linter.unusedSectionVars false

namespace Verif.Props

open Verif.Arr

/-- C conversion of a double to an integer: towards zero. -/
noncomputable def truncZ (y : ℝ) : Int := if 0 ≤ y then ⌊y⌋ else ⌈y⌉

/-- Number of the coefficients of the given degree. -/
def ncoef (d : Nat) : Nat := (d + 1) * (d + 2) / 2

/-- `D` is the largest degree for which `s` coefficients suffice. -/
def IsLargest (s D : Nat) : Prop := ncoef D ≤ s ∧ ∀ d, ncoef d ≤ s → d ≤ D

/-- What is assumed on the floating point value `(npy_intp)(0.5*(sqrt(8*size + 1) - 3))`:
it is exact for `size = 0`; up to `2^45` the root and the difference have a relative
rounding error of at most `2^-50`. -/
def SqrtDegree (fl : Nat → Int) : Prop :=
  fl 0 = -1 ∧ ∀ s : Nat, 1 ≤ s → s < 2 ^ 45 → ∃ a b : ℝ, |a| ≤ 1 / 2 ^ 50 ∧ |b| ≤ 1 / 2 ^ 50 ∧
    fl s = truncZ ((Real.sqrt (8 * s + 1) * (1 + a) - 3) / 2 * (1 + b))

theorem ncoef_two (d : Nat) : ncoef d * 2 = (d + 1) * (d + 2) := by
  have h : 2 ∣ (d + 1) * (d + 2) := (Nat.even_mul_succ_self (d + 1)).two_dvd
  exact Nat.div_mul_cancel h

theorem ncoef_mono {a b : Nat} (h : a ≤ b) : ncoef a ≤ ncoef b := by
  have := ncoef_two a
  have := ncoef_two b
  nlinarith

theorem largest_lt {s D : Nat} (h : IsLargest s D) : s < ncoef (D + 1) := by
  by_contra hc
  have := h.2 (D + 1) (by omega)
  omega

/-- The integer check of `_size_to_degree`. -/
theorem check_eq (n : Nat) : Int.tdiv (((n : Int) + 3) * ((n : Int) + 2)) 2 = ncoef (n + 1) := by
  have e : ((n : Int) + 3) * ((n : Int) + 2) = (ncoef (n + 1) : Int) * 2 := by
    have := ncoef_two (n + 1)
    zify at this
    linarith
  rw [e, Int.mul_tdiv_cancel _ (by norm_num)]

theorem truncZ_of {y : ℝ} {n : Nat} (h0 : (n : ℝ) ≤ y) (h1 : y < n + 1) : truncZ y = n := by
  have hn : (0 : ℝ) ≤ n := Nat.cast_nonneg n
  rw [truncZ, if_pos (by linarith), Int.floor_eq_iff]
  constructor <;> push_cast <;> linarith

theorem truncZ_zero {y : ℝ} (h0 : -1 < y) (h1 : y < 0) : truncZ y = 0 := by
  rw [truncZ, if_neg (by linarith), Int.ceil_eq_iff]
  constructor <;> push_cast <;> linarith

/-- The rounding error. -/
theorem round_err {r a b q : ℝ} (hr : 3 ≤ r) (hq : q ≤ r + 2) (hq0 : 0 < q) (hb2 : r * r < 2 ^ 48 + 1)
    (ha : |a| ≤ 1 / 2 ^ 50) (hb : |b| ≤ 1 / 2 ^ 50) :
    |(r * (1 + a) - 3) / 2 * (1 + b) - (r - 3) / 2| < 1 / q := by
  have e : (r * (1 + a) - 3) / 2 * (1 + b) - (r - 3) / 2 = r / 2 * a * (1 + b) + (r - 3) / 2 * b := by ring
  rw [e, lt_div_iff₀ hq0]
  have h1 : |1 + b| ≤ 2 := by
    have := abs_le.mp hb
    rw [abs_le]
    constructor <;> norm_num at this ⊢ <;> linarith
  have k1 : |r / 2 * a * (1 + b)| ≤ r / 2 * (1 / 2 ^ 50) * 2 := by
    rw [abs_mul, abs_mul, abs_of_nonneg (by linarith : 0 ≤ r / 2)]
    have := abs_nonneg a
    have := abs_nonneg (1 + b)
    gcongr
  have k2 : |(r - 3) / 2 * b| ≤ r / 2 * (1 / 2 ^ 50) := by
    rw [abs_mul, abs_of_nonneg (by linarith : 0 ≤ (r - 3) / 2)]
    have := abs_nonneg b
    gcongr
    linarith
  have k3 := abs_add_le (r / 2 * a * (1 + b)) ((r - 3) / 2 * b)
  have k4 : |r / 2 * a * (1 + b) + (r - 3) / 2 * b| * q ≤ r * (3 / 2) * (1 / 2 ^ 50) * (r * (5 / 3)) := by
    have : |r / 2 * a * (1 + b) + (r - 3) / 2 * b| ≤ r * (3 / 2) * (1 / 2 ^ 50) := by linarith
    have hq' : q ≤ r * (5 / 3) := by linarith
    gcongr
  refine lt_of_le_of_lt k4 ?_
  have : r * (3 / 2) * (1 / 2 ^ 50) * (r * (5 / 3)) = r * r * (5 / 2) / 2 ^ 50 := by ring
  rw [this, div_lt_one (by positivity)]
  norm_num at hb2 ⊢
  linarith

/-- **C50** The derived degree is the largest one which the coefficients allow; no
coefficients give a negative degree. -/
theorem C50_largest (fl : Nat → Int) (hf : SqrtDegree fl) :
    sizeToDegree fl 0 < 0 ∧
      ∀ s : Nat, 1 ≤ s → s < 2 ^ 45 → ∃ D : Nat, IsLargest s D ∧ sizeToDegree fl s = D := by
  constructor
  · simp [sizeToDegree, hf.1]
  · intro s h1 h2
    have hD : ∃ D, IsLargest s D := by
      have hb : ∀ d, ncoef d ≤ s → d ≤ s := fun d hd => by
        have := ncoef_two d
        nlinarith
      refine ⟨Nat.findGreatest (fun d => ncoef d ≤ s) s, ?_, ?_⟩
      · exact Nat.findGreatest_spec (P := fun d => ncoef d ≤ s) (m := 0) (by omega) (by simpa [ncoef] using h1)
      · intro d hd
        exact Nat.le_findGreatest (hb d hd) hd
    obtain ⟨D, hD⟩ := hD
    refine ⟨D, hD, ?_⟩
    obtain ⟨a, b, ha, hb, e⟩ := hf.2 s h1 h2
    set r := Real.sqrt (8 * s + 1) with hr
    have hr0 : 0 ≤ r := Real.sqrt_nonneg _
    have hrr : r * r = 8 * s + 1 := Real.mul_self_sqrt (by positivity)
    have hlt := largest_lt hD
    have t0 := ncoef_two D
    have t1 : ncoef (D + 1) * 2 = (D + 2) * (D + 3) := ncoef_two (D + 1)
    have hle := hD.1
    have q1 : (2 * (D : ℝ) + 3) ≤ r := by
      have : (4 * ((D + 1) * (D + 2)) + 1 : ℝ) ≤ 8 * s + 1 := by
        have : 4 * ((D + 1) * (D + 2)) ≤ 8 * s := by omega
        have := (Nat.cast_le (α := ℝ)).mpr this
        push_cast at this
        linarith
      rw [← hrr] at this
      exact abs_le_of_sq_le_sq' (by nlinarith) hr0 |>.2
    have q2 : r < 2 * (D : ℝ) + 5 := by
      have : (8 * s + 8 : ℝ) ≤ 4 * ((D + 2) * (D + 3)) := by
        have : 8 * s + 8 ≤ 4 * ((D + 2) * (D + 3)) := by omega
        have := (Nat.cast_le (α := ℝ)).mpr this
        push_cast at this
        linarith
      have hd : (0 : ℝ) ≤ D := Nat.cast_nonneg D
      refine abs_lt_of_sq_lt_sq' ?_ (by linarith) |>.2
      nlinarith
    have hd : (0 : ℝ) ≤ D := Nat.cast_nonneg D
    have hs48 : r * r < 2 ^ 48 + 1 := by
      rw [hrr]
      have := (Nat.cast_lt (α := ℝ)).mpr h2
      push_cast at this
      linarith
    have err := round_err (a := a) (b := b) (r := r) (q := 2 * D + 5) (by linarith) (by linarith) (by linarith)
      hs48 ha hb
    set y := (r * (1 + a) - 3) / 2 * (1 + b) with hy
    rw [abs_lt] at err
    have hq : (1 : ℝ) / (2 * D + 5) ≤ 1 := by
      rw [div_le_one (by linarith)]; linarith
    unfold sizeToDegree
    by_cases hc : s = ncoef D
    · -- the exact value is an integer
      have er : r = 2 * D + 3 := by
        have : (8 * s + 1 : ℝ) = (2 * D + 3) * (2 * D + 3) := by
          have : 8 * s + 1 = (2 * D + 3) * (2 * D + 3) := by rw [hc]; nlinarith
          exact_mod_cast this
        rw [hr, this, Real.sqrt_mul_self (by linarith)]
      by_cases hyD : (D : ℝ) ≤ y
      · have ht : fl s = D := by
          rw [e]
          exact truncZ_of hyD (by rw [er] at err; linarith [err.2])
        simp only [ht, check_eq]
        rw [if_neg (by omega)]
      · cases D with
        | zero =>
          have ht : fl s = 0 := by
            rw [e]
            refine truncZ_zero ?_ (by push_cast at hyD; linarith)
            have := err.1
            rw [er] at this
            push_cast at this hq
            linarith
          have hck := check_eq 0
          simp only [ht]
          rw [if_neg]
          · rfl
          · simp only [Nat.cast_zero, zero_add] at hck ⊢
            rw [hck]
            intro hh
            have h3 : ncoef (0 + 1) = s := by exact_mod_cast hh
            exact absurd h3 (by omega)
        | succ n =>
          have ht : fl s = n := by
            rw [e]
            push_cast at hyD err er hq
            refine truncZ_of ?_ (by linarith)
            have := err.1
            rw [er] at this
            linarith
          simp only [ht, check_eq]
          rw [if_pos (by rw [hc])]
          push_cast
          rfl
    · have q1' : (2 * (D : ℝ) + 3) * (2 * D + 3) + 8 ≤ r * r := by
        have : 4 * ((D + 1) * (D + 2)) + 8 ≤ 8 * s := by omega
        have := (Nat.cast_le (α := ℝ)).mpr this
        push_cast at this
        nlinarith
      have q2' : r * r + 8 ≤ (2 * (D : ℝ) + 5) * (2 * D + 5) := by
        have : 8 * s + 8 ≤ 4 * ((D + 2) * (D + 3)) := by omega
        have := (Nat.cast_le (α := ℝ)).mpr this
        push_cast at this
        nlinarith
      have m1 : 1 / (2 * (D : ℝ) + 5) ≤ (r - (2 * D + 3)) / 2 := by
        rw [div_le_iff₀ (by linarith)]
        nlinarith
      have m2 : 1 / (2 * (D : ℝ) + 5) ≤ (2 * D + 5 - r) / 2 := by
        rw [div_le_iff₀ (by linarith)]
        nlinarith
      have ht : fl s = D := by
        rw [e]
        exact truncZ_of (by linarith [err.1]) (by linarith [err.2])
      simp only [ht, check_eq]
      rw [if_neg (by omega)]

/-- **C50** The degree used: the requested one if the coefficients allow it, otherwise the
largest one; all rows of this degree exist. -/
theorem C50_degree (fl : Nat → Int) (hf : SqrtDegree fl) (s : Nat) (hs : s < 2 ^ 45) (degree : Int) :
    (s = 0 → selectDegree [sizeToDegree fl s] degree = none) ∧
    (1 ≤ s → ∃ D N : Nat, IsLargest s D ∧ selectDegree [sizeToDegree fl s] degree = some (N : Int) ∧
      (N : Int) = (if degree < 0 ∨ (D : Int) < degree then (D : Int) else degree) ∧ ncoef N ≤ s) := by
  obtain ⟨h0, h1⟩ := C50_largest fl hf
  constructor
  · rintro rfl
    simp [selectDegree, getMaxDegree, h0]
  · intro h
    obtain ⟨D, hD, e⟩ := h1 s h hs
    have hDs : D < 2 ^ 23 := by
      have := hD.1
      have := ncoef_two D
      by_contra hc
      have : 2 ^ 23 * 2 ^ 23 ≤ D * D := Nat.mul_le_mul (by omega) (by omega)
      nlinarith
    have hb : ¬((D : Int) > 2147483647 ∧ degree < 0) := by omega
    by_cases hc : degree < 0 ∨ (D : Int) < degree
    · exact ⟨D, D, hD, by
        simp only [selectDegree, getMaxDegree, List.foldl_nil, e]
        rw [if_neg (by omega), if_neg hb, if_pos hc], by rw [if_pos hc], hD.1⟩
    · refine ⟨D, degree.toNat, hD, ?_, by rw [if_neg hc]; omega, ?_⟩
      · simp only [selectDegree, getMaxDegree, List.foldl_nil, e]
        rw [if_neg (by omega), if_neg hb, if_neg (by simpa using hc), Int.toNat_of_nonneg (by omega)]
      · exact (ncoef_mono (by omega)).trans hD.1

/-- The exact root is such a value. -/
noncomputable example : {fl : Nat → Int // SqrtDegree fl} :=
  ⟨fun s => if s = 0 then -1 else truncZ ((Real.sqrt (8 * s + 1) * (1 + 0) - 3) / 2 * (1 + 0)), rfl,
    fun s h _ => ⟨0, 0, by norm_num, by norm_num, by simp only [show s ≠ 0 by omega, if_false]⟩⟩

/-- 200 rows allow the degree 18 (190 rows), not 19 (210 rows). -/
example : IsLargest 200 18 :=
  ⟨by decide, fun d h => by
    by_contra hc
    exact absurd ((ncoef_mono (show 19 ≤ d by omega)).trans h) (by decide)⟩

end Verif.Props
