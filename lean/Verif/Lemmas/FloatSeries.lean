import Verif.Model.FloatSeries
import Verif.Lemmas.Buffer
import Verif.Spec.Binary64
import Mathlib.Analysis.Complex.Norm
import Mathlib.Analysis.SpecialFunctions.Trigonometric.Basic
import Mathlib.Analysis.SpecialFunctions.Trigonometric.Bounds
import Mathlib.Algebra.Order.Ring.Pow

set_option linter.unusedSectionVars false

namespace Verif.FloatSeries

open Verif.Buf Verif.Spec

section
variable {K : Type} [Field K] (rnd : K → K)

/-- Values of the product of the loop of `shc_relradpow_internal`. -/
def intSeq (rr : K) : Nat → K
  | 0 => rr
  | i + 1 => rnd (intSeq rr i * rr)

/-- Values of the product of the loop of `shc_relradpow_external`. -/
def extSeq (rel : K) : Nat → K
  | 0 => 1
  | i + 1 => rnd (extSeq rel i * rel)

/-- Values of the pairs of the loop of `fs_cos_sin`. -/
def csSeq (c s : K) : Nat → K × K
  | 0 => (c, s)
  | i + 1 =>
    (rnd (rnd ((csSeq c s i).1 * c) - rnd ((csSeq c s i).2 * s)),
      rnd (rnd ((csSeq c s i).1 * s) + rnd ((csSeq c s i).2 * c)))

theorem internalF_spec (b : List K) (n : Nat) (x : K) (hb : n < b.length) :
    ∃ b', internalF rnd b n x = some b' ∧ b'.length = b.length ∧
      Holds b' (fun j => j ≤ n) (fun j => intSeq rnd (rnd (1 / x)) (j + 1)) := by
  unfold internalF
  obtain ⟨s, hs, hP⟩ := forTo_inv
    (fun i (s : List K × K) => s.1.length = b.length ∧
      Holds s.1 (fun j => j < i) (fun j => intSeq rnd (rnd (1 / x)) (j + 1)) ∧
      s.2 = intSeq rnd (rnd (1 / x)) i)
    (fun i s => do
      let last := rnd (s.2 * rnd (1 / x))
      let b ← wr s.1 i last
      return (b, last)) 0 n (b, rnd (1 / x)) (by omega) ⟨rfl, fun j hj => by omega, rfl⟩
    (by
      rintro i ⟨bb, c⟩ _ hin ⟨hl, hH, he⟩
      replace hl : bb.length = b.length := hl
      replace he : c = intSeq rnd (rnd (1 / x)) i := he
      have hc : rnd (c * rnd (1 / x)) = intSeq rnd (rnd (1 / x)) (i + 1) := by rw [he]; rfl
      refine ⟨_, by simp only [wr_eq (rnd (c * rnd (1 / x))) (show i < bb.length by omega)]; rfl,
        by simpa using hl, ?_, hc⟩
      exact hH.set (show i < bb.length by omega) hc (fun j hj => by omega))
  refine ⟨s.1, ?_, hP.1, hP.2.1.mono (fun j hj => by omega)⟩
  simp only [Option.bind_eq_bind] at hs ⊢
  rw [hs]; rfl

theorem externalF_spec (b : List K) (n : Nat) (x : K) (hb : n < b.length) :
    ∃ b', externalF rnd b n x = some b' ∧ b'.length = b.length ∧
      Holds b' (fun j => j ≤ n) (fun j => if j = 0 then rnd (1 / x) else extSeq rnd x (j - 1)) := by
  unfold externalF
  have h0 : Holds b (fun _ => False) (fun j => if j = 0 then rnd (1 / x) else extSeq rnd x (j - 1)) :=
    fun j hj => hj.elim
  have h1 : Holds (b.set 0 (rnd (1 / x))) (fun j => j < 1)
      (fun j => if j = 0 then rnd (1 / x) else extSeq rnd x (j - 1)) :=
    h0.set (by omega) (by simp) (fun j hj => Or.inr (by omega))
  simp only [Option.bind_eq_bind, wr_eq (rnd (1 / x)) (show 0 < b.length by omega), Option.bind_some]
  by_cases hn : 1 ≤ n
  · rw [if_pos hn, wr_eq _ (by simp; omega)]
    simp only [Option.bind_some]
    have h2 := h1.set (D' := fun j => j < 2) (i := 1) (v := 1) (by simp; omega) (by simp [extSeq])
      (fun j hj => by omega)
    obtain ⟨s, hs, hP⟩ := forTo_inv
      (fun i (s : List K × K) => s.1.length = b.length ∧
        Holds s.1 (fun j => j < i) (fun j => if j = 0 then rnd (1 / x) else extSeq rnd x (j - 1)) ∧
        s.2 = extSeq rnd x (i - 2))
      (fun i s => (wr s.1 i (rnd (s.2 * x))).bind (fun b => pure (b, rnd (s.2 * x)))) 2 n
      ((b.set 0 (rnd (1 / x))).set 1 1, 1) (by omega) ⟨by simp, h2, by simp [extSeq]⟩
      (by
        rintro i ⟨bb, c⟩ hi hin ⟨hl, hH, he⟩
        replace hl : bb.length = b.length := hl
        replace he : c = extSeq rnd x (i - 2) := he
        have hc : rnd (c * x) = extSeq rnd x (i - 1) := by
          rw [he, show i - 1 = i - 2 + 1 by omega]; rfl
        refine ⟨_, by simp only [wr_eq (rnd (c * x)) (show i < bb.length by omega)]; rfl,
          by simpa using hl, ?_, hc⟩
        exact hH.set (show i < bb.length by omega) (by rw [if_neg (by omega)]; exact hc)
          (fun j hj => by omega))
    exact ⟨s.1, by rw [hs]; rfl, hP.1, hP.2.1.mono (fun j hj => by omega)⟩
  · have : n = 0 := by omega
    subst this
    exact ⟨b.set 0 (rnd (1 / x)), by simp [forTo, forUp], by simp, h1.mono (fun j hj => by omega)⟩

theorem fsCosSinF_spec (cos sin : K → K) (b : List (K × K)) (n : Nat) (x : K) (hb : n < b.length) :
    ∃ b', fsCosSinF rnd cos sin b n x = some b' ∧ b'.length = b.length ∧
      Holds b' (fun j => j ≤ n)
        (fun j => if j = 0 then (1, 0) else csSeq rnd (cos x) (sin x) (j - 1)) := by
  unfold fsCosSinF
  set g : Nat → K × K := fun j => if j = 0 then (1, 0) else csSeq rnd (cos x) (sin x) (j - 1) with hg
  have h0 : wr b 0 ((1 : K), (0 : K)) = some (b.set 0 (1, 0)) := wr_eq _ (by omega)
  have H0 : Holds (b.set 0 ((1 : K), (0 : K))) (fun j => j < 1) g := by
    have : Holds b (fun _ => False) g := fun j hj => hj.elim
    exact this.set (by omega) (by simp [hg]) (fun j hj => Or.inr (by omega))
  rw [h0]
  simp only [Option.bind_eq_bind, Option.bind_some]
  by_cases hn : n ≥ 1
  · simp only [hn, if_true]
    have h1 : wr (b.set 0 ((1 : K), (0 : K))) 1 (cos x, sin x) =
        some ((b.set 0 (1, 0)).set 1 (cos x, sin x)) := wr_eq _ (by simp; omega)
    rw [h1]
    simp only [Option.bind_some]
    have H1 : Holds ((b.set 0 ((1 : K), (0 : K))).set 1 (cos x, sin x)) (fun j => j < 2) g :=
      H0.set (by simp; omega) (by simp [hg, csSeq]) (fun j hj => by omega)
    obtain ⟨s, hs, hP⟩ := forTo_inv
      (fun i (s : List (K × K) × K × K) => s.1.length = b.length ∧
        Holds s.1 (fun j => j < i) g ∧ s.2 = csSeq rnd (cos x) (sin x) (i - 2))
      (fun i s => do
        let cosNew := rnd (rnd (s.2.1 * cos x) - rnd (s.2.2 * sin x))
        let sinNew := rnd (rnd (s.2.1 * sin x) + rnd (s.2.2 * cos x))
        let b ← wr s.1 i (cosNew, sinNew)
        return (b, cosNew, sinNew)) 2 n
      ((b.set 0 ((1 : K), (0 : K))).set 1 (cos x, sin x), cos x, sin x)
      (by omega) ⟨by simp, H1, by simp [csSeq]⟩
      (by
        rintro i ⟨bb, c, s⟩ hi hin ⟨hl, hH, he⟩
        replace hl : bb.length = b.length := hl
        replace he : (c, s) = csSeq rnd (cos x) (sin x) (i - 2) := he
        have hc : (rnd (rnd (c * cos x) - rnd (s * sin x)), rnd (rnd (c * sin x) + rnd (s * cos x))) =
            csSeq rnd (cos x) (sin x) (i - 1) := by
          rw [show i - 1 = i - 2 + 1 by omega, csSeq, ← he]
        have hw : wr bb i (rnd (rnd (c * cos x) - rnd (s * sin x)),
          rnd (rnd (c * sin x) + rnd (s * cos x))) = some (bb.set i _) := wr_eq _ (by omega)
        refine ⟨_, by simp only [hw]; rfl, by simpa using hl, ?_, ?_⟩
        · refine hH.set (show i < bb.length by omega) ?_ (fun j hj => by omega)
          rw [hc, hg]
          simp only []
          rw [if_neg (by omega)]
        · simpa using hc)
    refine ⟨s.1, ?_, hP.1, hP.2.1.mono (fun j hj => by omega)⟩
    simp only [Option.bind_eq_bind] at hs
    rw [hs]; rfl
  · simp only [hn, if_false]
    exact ⟨_, rfl, by simp, H0.mono (fun j hj => by omega)⟩

theorem fsCosSinRefF_spec (cos sin : K → K) (b : List (K × K)) (n : Nat) (x : K) (hb : n < b.length) :
    ∃ b', fsCosSinRefF rnd cos sin b n x = some b' ∧ b'.length = b.length ∧
      Holds b' (fun j => j ≤ n)
        (fun j => (cos (rnd ((j : K) * x)), sin (rnd ((j : K) * x)))) := by
  unfold fsCosSinRefF
  obtain ⟨s, hs, hP⟩ := forTo_inv
    (fun i (s : List (K × K)) => s.length = b.length ∧
      Holds s (fun j => j < i) (fun j => (cos (rnd ((j : K) * x)), sin (rnd ((j : K) * x)))))
    (fun i b => wr b i (cos (rnd ((i : K) * x)), sin (rnd ((i : K) * x)))) 0 n b (by omega)
    ⟨rfl, fun j hj => by omega⟩
    (by
      rintro i bb _ hin ⟨hl, hH⟩
      refine ⟨_, wr_eq _ (by omega), by simpa using hl, ?_⟩
      exact hH.set (by omega) rfl (fun j hj => by omega))
  exact ⟨s, hs, hP.1, hP.2.mono (fun j hj => by omega)⟩

end

/-- The relative error of the rounding of a normal number. -/
theorem rel_normal {rnd : ℝ → ℝ} (R : Nearest rnd) {x : ℝ} (h : 2 ^ (-1021 : ℤ) ≤ |x|) :
    |rnd x - x| ≤ 2 ^ (-53 : ℤ) * |x| := by
  have h0 : 0 < |x| := lt_of_lt_of_le (by positivity) h
  set k := Int.log 2 |x| with hk
  have h1 : (2 : ℝ) ^ k ≤ |x| := by
    have := Int.zpow_log_le_self (b := 2) (by norm_num) h0
    exact_mod_cast this
  have h2 : |x| < 2 ^ (k + 1) := by
    have := Int.lt_zpow_succ_log_self (b := 2) (by norm_num) |x|
    exact_mod_cast this
  have h3 : -1021 ≤ k + 1 := by
    by_contra hc
    push Not at hc
    have : (2 : ℝ) ^ (k + 1) ≤ 2 ^ (-1021 : ℤ) := zpow_le_zpow_right₀ (by norm_num) hc.le
    linarith
  have h4 := R.err h3 h2.le
  have e : (2 : ℝ) ^ (k + 1 - 54) = 2 ^ (-53 : ℤ) * 2 ^ k := by
    rw [← zpow_add₀ (by norm_num)]
    congr 1
    ring
  rw [e] at h4
  exact h4.trans (mul_le_mul_of_nonneg_left h1 (by positivity))

/-- Powers of a number a little above one. -/
theorem inv_pow_le {t : ℝ} {n : Nat} (h0 : 0 ≤ t) (h1 : n * t < 1) (ht : t < 1) :
    (1 / (1 - t)) ^ n ≤ 1 / (1 - n * t) := by
  have hb : 1 - n * t ≤ (1 - t) ^ n := by
    have := one_add_mul_le_pow (a := -t) (by linarith) n
    rw [← sub_eq_add_neg] at this
    linarith
  rw [div_pow, one_pow]
  exact one_div_le_one_div_of_le (by linarith) hb

theorem inv_pow_sub_le {t e : ℝ} {n : Nat} (h0 : 0 ≤ t) (he : 0 ≤ e) (he1 : e ≤ 1) (h1 : n * t ≤ e / 2)
    (ht : t < 1) : (1 / (1 - t)) ^ n - 1 ≤ (1 + e) * (n * t) := by
  have hn : (0 : ℝ) ≤ n * t := by positivity
  refine (sub_le_sub_right (inv_pow_le h0 (by linarith) ht) 1).trans ?_
  rw [div_sub_one (by linarith), div_le_iff₀ (by linarith)]
  generalize (n : ℝ) * t = s at h1 hn
  have h3 : e * s ≤ e / 2 := by nlinarith
  have h4 : 0 ≤ s * (e - s - e * s) := mul_nonneg hn (by linarith)
  nlinarith

/-- `y` is `x` up to `n` roundings. -/
def W (n : Nat) (x y : ℝ) : Prop :=
  0 < x ∧ 0 < y ∧ x ≤ y * (1 / (1 - 2 ^ (-53 : ℤ))) ^ n ∧ y ≤ x * (1 / (1 - 2 ^ (-53 : ℤ))) ^ n

theorem qpos : (0 : ℝ) < 1 / (1 - 2 ^ (-53 : ℤ)) := by norm_num

theorem qone : (1 : ℝ) ≤ 1 / (1 - 2 ^ (-53 : ℤ)) := by norm_num

theorem W.refl {x : ℝ} (h : 0 < x) : W 0 x x := ⟨h, h, by simp, by simp⟩

theorem W.inv {n : Nat} {x y : ℝ} (h : W n x y) : W n (1 / x) (1 / y) := by
  obtain ⟨h1, h2, h3, h4⟩ := h
  refine ⟨by positivity, by positivity, ?_, ?_⟩
  · rw [div_le_iff₀ h1, one_div_mul_eq_div, div_mul_eq_mul_div, le_div_iff₀ h2, one_mul, mul_comm]
    exact h4
  · rw [div_le_iff₀ h2, one_div_mul_eq_div, div_mul_eq_mul_div, le_div_iff₀ h1, one_mul, mul_comm]
    exact h3

theorem W.mul {n m : Nat} {x y x' y' : ℝ} (h : W n x y) (h' : W m x' y') :
    W (n + m) (x * x') (y * y') := by
  obtain ⟨h1, h2, h3, h4⟩ := h
  obtain ⟨g1, g2, g3, g4⟩ := h'
  have hq := qpos
  refine ⟨by positivity, by positivity, ?_, ?_⟩
  · rw [pow_add]
    calc x * x' ≤ (y * (1 / (1 - 2 ^ (-53 : ℤ))) ^ n) * (y' * (1 / (1 - 2 ^ (-53 : ℤ))) ^ m) := by gcongr
      _ = _ := by ring
  · rw [pow_add]
    calc y * y' ≤ (x * (1 / (1 - 2 ^ (-53 : ℤ))) ^ n) * (x' * (1 / (1 - 2 ^ (-53 : ℤ))) ^ m) := by gcongr
      _ = _ := by ring

theorem W.mono {n m : Nat} {x y : ℝ} (h : W n x y) (hm : n ≤ m) : W m x y := by
  obtain ⟨h1, h2, h3, h4⟩ := h
  have := pow_le_pow_right₀ qone hm
  exact ⟨h1, h2, h3.trans (by gcongr), h4.trans (by gcongr)⟩

theorem q_le_two {n : Nat} (hn : n ≤ 2 ^ 33) : (1 / (1 - (2 : ℝ) ^ (-53 : ℤ))) ^ n ≤ 2 := by
  have hn' : (n : ℝ) ≤ 2 ^ 33 := by exact_mod_cast hn
  have h1 : (n : ℝ) * 2 ^ (-53 : ℤ) ≤ 1 / 2 := by
    refine (mul_le_mul_of_nonneg_right hn' (by positivity)).trans (by norm_num)
  have h0 : (0 : ℝ) ≤ 2 ^ (-53 : ℤ) := by positivity
  have h2 : (2 : ℝ) ^ (-53 : ℤ) < 1 := by norm_num
  generalize (2 : ℝ) ^ (-53 : ℤ) = t at h1 h0 h2
  refine (inv_pow_le h0 (by linarith) h2).trans ?_
  rw [div_le_iff₀ (by linarith)]
  linarith

/-- One more rounding. -/
theorem W.rnd {rnd : ℝ → ℝ} (R : Nearest rnd) {n : Nat} {x y : ℝ} (h : W n x y) (hn : n ≤ 2 ^ 33)
    (hx : 2 ^ (-1020 : ℤ) ≤ x) : W (n + 1) x (rnd y) := by
  obtain ⟨h1, h2, h3, h4⟩ := h
  have hq := q_le_two hn
  have hy : 2 ^ (-1021 : ℤ) ≤ |y| := by
    rw [abs_of_pos h2]
    have : x ≤ y * 2 := h3.trans (mul_le_mul_of_nonneg_left hq h2.le)
    have e : (2 : ℝ) ^ (-1020 : ℤ) = 2 ^ (-1021 : ℤ) * 2 := by
      rw [← zpow_add_one₀ (by norm_num)]
      norm_num only
    linarith
  have hr := abs_le.mp (rel_normal R hy)
  rw [abs_of_pos h2] at hr
  have hl : y * (1 - 2 ^ (-53 : ℤ)) ≤ rnd y := by nlinarith [hr.1]
  have hu : rnd y ≤ y * (1 + 2 ^ (-53 : ℤ)) := by nlinarith [hr.2]
  have hu' : (1 : ℝ) + 2 ^ (-53 : ℤ) ≤ 1 / (1 - 2 ^ (-53 : ℤ)) := by norm_num
  have hpos : 0 < rnd y := lt_of_lt_of_le (mul_pos h2 (by norm_num)) hl
  have hy' : y ≤ rnd y * (1 / (1 - 2 ^ (-53 : ℤ))) := by
    rw [mul_one_div, le_div_iff₀ (by norm_num)]
    exact hl
  have hqn : (0 : ℝ) < (1 / (1 - 2 ^ (-53 : ℤ))) ^ n := pow_pos qpos n
  refine ⟨h1, hpos, ?_, ?_⟩
  · rw [pow_succ']
    calc x ≤ y * _ := h3
      _ ≤ (rnd y * (1 / (1 - 2 ^ (-53 : ℤ)))) * _ := mul_le_mul_of_nonneg_right hy' hqn.le
      _ = _ := by ring
  · rw [pow_succ]
    calc rnd y ≤ y * (1 + 2 ^ (-53 : ℤ)) := hu
      _ ≤ (x * (1 / (1 - 2 ^ (-53 : ℤ))) ^ n) * (1 / (1 - 2 ^ (-53 : ℤ))) :=
        mul_le_mul h4 hu' (by positivity) (by positivity)
      _ = _ := by ring

theorem W.err {n : Nat} {x y : ℝ} (h : W n x y) (hn : n ≤ 2 ^ 33) :
    |y - x| ≤ (1 + 2 ^ (-19 : ℤ)) * (n * 2 ^ (-53 : ℤ)) * x := by
  obtain ⟨h1, h2, h3, h4⟩ := h
  have hn' : (n : ℝ) ≤ 2 ^ 33 := by exact_mod_cast hn
  have hb : (1 / (1 - (2 : ℝ) ^ (-53 : ℤ))) ^ n - 1 ≤ (1 + 2 ^ (-19 : ℤ)) * (n * 2 ^ (-53 : ℤ)) :=
    inv_pow_sub_le (by positivity) (by positivity) (by norm_num)
      ((mul_le_mul_of_nonneg_right hn' (by positivity)).trans (by norm_num)) (by norm_num)
  have hq1 : (1 : ℝ) ≤ (1 / (1 - (2 : ℝ) ^ (-53 : ℤ))) ^ n := one_le_pow₀ qone
  set q := (1 / (1 - (2 : ℝ) ^ (-53 : ℤ))) ^ n
  set g := (1 + (2 : ℝ) ^ (-19 : ℤ)) * (n * 2 ^ (-53 : ℤ))
  rw [abs_le]
  constructor
  · by_contra hc
    push Not at hc
    have : y < x * (1 - g) := by nlinarith
    have h5 : y * q < x * (1 - g) * q := mul_lt_mul_of_pos_right this (by linarith)
    have h6 : (1 - g) * q ≤ (2 - q) * q := by nlinarith
    have h7 : (2 - q) * q ≤ 1 := by nlinarith [sq_nonneg (q - 1)]
    have : x * (1 - g) * q ≤ x := by
      rw [mul_assoc]
      nlinarith
    linarith
  · nlinarith

/-- A power between one and a power in the range. -/
theorem pow_range {x m : ℝ} {n j : Nat} (h0 : 0 < x) (hm : m ≤ 1) (h : m ≤ x ^ n) (hj : j ≤ n) :
    m ≤ x ^ j := by
  rcases le_total 1 x with h1 | h1
  · exact hm.trans (one_le_pow₀ h1)
  · exact h.trans (pow_le_pow_of_le_one h0.le h1 hj)

theorem intSeq_W {rnd : ℝ → ℝ} (R : Nearest rnd) {x rr : ℝ} {k : Nat} (hx : 0 < x) (hrr : W 2 x rr)
    (hr : ∀ j ≤ k + 1, 2 ^ (-1020 : ℤ) ≤ x ^ j) (hk : k ≤ 2 ^ 31) :
    ∀ i ≤ k, W (3 * i + 2) (x ^ (i + 1)) (intSeq rnd rr i)
  | 0, _ => by simpa [intSeq] using hrr
  | i + 1, hi => by
    have h := intSeq_W R hx hrr hr hk i (by omega)
    have := (h.mul hrr).rnd R (by omega) (by rw [← pow_succ]; exact hr _ (by omega))
    rw [← pow_succ] at this
    exact this

theorem extSeq_W {rnd : ℝ → ℝ} (R : Nearest rnd) {x rel : ℝ} {k : Nat} (hx : 0 < x) (hrr : W 1 x rel)
    (hr : ∀ j ≤ k, 2 ^ (-1020 : ℤ) ≤ x ^ j) (hk : k ≤ 2 ^ 31) :
    ∀ i ≤ k, W (2 * i) (x ^ i) (extSeq rnd rel i)
  | 0, _ => by simpa [extSeq] using W.refl one_pos
  | i + 1, hi => by
    have h := extSeq_W R hx hrr hr hk i (by omega)
    have := (h.mul hrr).rnd R (by omega) (by rw [← pow_succ]; exact hr _ (by omega))
    rw [← pow_succ] at this
    exact this

/-- One component of the product of two complex numbers. -/
theorem comp_err {rnd : ℝ → ℝ} (R : Nearest rnd) (p q : ℝ) :
    |rnd (rnd p + rnd q) - (p + q)| ≤ (2 * 2 ^ (-53 : ℤ) + 2 ^ (-53 : ℤ) * 2 ^ (-53 : ℤ)) * (|p| + |q|) +
      4 * 2 ^ (-1075 : ℤ) := by
  have h1 := R.rel p
  have h2 := R.rel q
  have h3 := R.rel (rnd p + rnd q)
  have hu : (0 : ℝ) < 2 ^ (-53 : ℤ) := by positivity
  have hu' : (2 : ℝ) ^ (-53 : ℤ) ≤ 1 / 4 := by norm_num
  have ht : (0 : ℝ) < 2 ^ (-1075 : ℤ) := by positivity
  generalize (2 : ℝ) ^ (-53 : ℤ) = u at *
  generalize (2 : ℝ) ^ (-1075 : ℤ) = t at *
  have h4 : |rnd p + rnd q| ≤ (1 + u) * (|p| + |q|) + 2 * t := by
    have e : rnd p + rnd q = (rnd p - p) + (rnd q - q) + p + q := by ring
    rw [e]
    have := abs_add_le ((rnd p - p) + (rnd q - q) + p) q
    have := abs_add_le ((rnd p - p) + (rnd q - q)) p
    have := abs_add_le (rnd p - p) (rnd q - q)
    linarith
  have h5 : |rnd (rnd p + rnd q) - (p + q)| ≤ |rnd (rnd p + rnd q) - (rnd p + rnd q)| + |rnd p - p| +
      |rnd q - q| := by
    have e : rnd (rnd p + rnd q) - (p + q) = (rnd (rnd p + rnd q) - (rnd p + rnd q)) + (rnd p - p) +
      (rnd q - q) := by ring
    rw [e]
    have := abs_add_le ((rnd (rnd p + rnd q) - (rnd p + rnd q)) + (rnd p - p)) (rnd q - q)
    have := abs_add_le (rnd (rnd p + rnd q) - (rnd p + rnd q)) (rnd p - p)
    linarith
  have h6 := mul_le_mul_of_nonneg_left h4 hu.le
  nlinarith [abs_nonneg p, abs_nonneg q]

theorem comp_err_sub {rnd : ℝ → ℝ} (R : Nearest rnd) (p q : ℝ) :
    |rnd (rnd p - rnd q) - (p - q)| ≤ (2 * 2 ^ (-53 : ℤ) + 2 ^ (-53 : ℤ) * 2 ^ (-53 : ℤ)) * (|p| + |q|) +
      4 * 2 ^ (-1075 : ℤ) := by
  have h1 := R.rel p
  have h2 := R.rel q
  have h3 := R.rel (rnd p - rnd q)
  have hu : (0 : ℝ) < 2 ^ (-53 : ℤ) := by positivity
  have hu' : (2 : ℝ) ^ (-53 : ℤ) ≤ 1 / 4 := by norm_num
  have ht : (0 : ℝ) < 2 ^ (-1075 : ℤ) := by positivity
  generalize (2 : ℝ) ^ (-53 : ℤ) = u at *
  generalize (2 : ℝ) ^ (-1075 : ℤ) = t at *
  have h4 : |rnd p - rnd q| ≤ (1 + u) * (|p| + |q|) + 2 * t := by
    have e : rnd p - rnd q = (rnd p - p) - (rnd q - q) + p - q := by ring
    rw [e]
    have := abs_sub ((rnd p - p) - (rnd q - q) + p) q
    have := abs_add_le ((rnd p - p) - (rnd q - q)) p
    have := abs_sub (rnd p - p) (rnd q - q)
    linarith
  have h5 : |rnd (rnd p - rnd q) - (p - q)| ≤ |rnd (rnd p - rnd q) - (rnd p - rnd q)| + |rnd p - p| +
      |rnd q - q| := by
    have e : rnd (rnd p - rnd q) - (p - q) = (rnd (rnd p - rnd q) - (rnd p - rnd q)) + (rnd p - p) -
      (rnd q - q) := by ring
    rw [e]
    have := abs_sub ((rnd (rnd p - rnd q) - (rnd p - rnd q)) + (rnd p - p)) (rnd q - q)
    have := abs_add_le (rnd (rnd p - rnd q) - (rnd p - rnd q)) (rnd p - p)
    linarith
  have h6 := mul_le_mul_of_nonneg_left h4 hu.le
  nlinarith [abs_nonneg p, abs_nonneg q]

/-- Cauchy-Schwarz. -/
theorem cauchy (z w : ℂ) : |z.re * w.re| + |z.im * w.im| ≤ ‖z‖ * ‖w‖ := by
  rw [← abs_of_nonneg (show 0 ≤ ‖z‖ * ‖w‖ by positivity)]
  refine abs_le_of_sq_le_sq' ?_ (by positivity) |>.2
  rw [sq_abs, mul_pow, Complex.sq_norm, Complex.sq_norm, Complex.normSq_apply, Complex.normSq_apply,
    abs_mul, abs_mul]
  have h1 := abs_mul_abs_self z.re
  have h2 := abs_mul_abs_self z.im
  have h3 := abs_mul_abs_self w.re
  have h4 := abs_mul_abs_self w.im
  rw [← h1, ← h2, ← h3, ← h4]
  nlinarith [sq_nonneg (|z.re| * |w.im| - |z.im| * |w.re|)]

theorem cauchy' (z w : ℂ) : |z.re * w.im| + |z.im * w.re| ≤ ‖z‖ * ‖w‖ := by
  have := cauchy z ⟨w.im, w.re⟩
  have e : ‖(⟨w.im, w.re⟩ : ℂ)‖ = ‖w‖ := by
    simp only [Complex.norm_def, Complex.normSq_apply]
    rw [add_comm]
  rw [e] at this
  exact this

/-- Rounded product of two complex numbers. -/
theorem mul_err {rnd : ℝ → ℝ} (R : Nearest rnd) (z w : ℂ) :
    ‖(⟨rnd (rnd (z.re * w.re) - rnd (z.im * w.im)), rnd (rnd (z.re * w.im) + rnd (z.im * w.re))⟩ : ℂ) -
      z * w‖ ≤ 5 * 2 ^ (-53 : ℤ) * (‖z‖ * ‖w‖) + 8 * 2 ^ (-1075 : ℤ) := by
  refine (Complex.norm_le_abs_re_add_abs_im _).trans ?_
  simp only [Complex.sub_re, Complex.sub_im, Complex.mul_re, Complex.mul_im]
  have h1 := comp_err_sub R (z.re * w.re) (z.im * w.im)
  have h2 := comp_err R (z.re * w.im) (z.im * w.re)
  have c1 := cauchy z w
  have c2 := cauchy' z w
  have hu : (0 : ℝ) < 2 ^ (-53 : ℤ) := by positivity
  have hu' : (2 : ℝ) ^ (-53 : ℤ) ≤ 1 / 4 := by norm_num
  generalize (2 : ℝ) ^ (-53 : ℤ) = u at *
  generalize (2 : ℝ) ^ (-1075 : ℤ) = t at *
  have hn : 0 ≤ ‖z‖ * ‖w‖ := by positivity
  have h3 := mul_le_mul_of_nonneg_left c1 (show 0 ≤ 2 * u + u * u by positivity)
  have h4 := mul_le_mul_of_nonneg_left c2 (show 0 ≤ 2 * u + u * u by positivity)
  nlinarith [mul_nonneg hu.le hn]

/-- Error of the recurrence of the cosines and sines. -/
theorem csSeq_err {rnd : ℝ → ℝ} (R : Nearest rnd) {c s : ℝ} {ζ : ℂ} (hζ : ‖ζ‖ = 1)
    (hw : ‖(⟨c, s⟩ : ℂ) - ζ‖ ≤ 2 * 2 ^ (-53 : ℤ)) (i : Nat) :
    ‖(⟨(csSeq rnd c s i).1, (csSeq rnd c s i).2⟩ : ℂ) - ζ ^ (i + 1)‖ ≤ (1 + 2 ^ (-50 : ℤ)) ^ (i + 1) - 1 := by
  induction i with
  | zero =>
    simp only [csSeq, zero_add, pow_one]
    refine hw.trans ?_
    norm_num
  | succ i ih =>
    set w : ℂ := ⟨c, s⟩ with hwd
    set z : ℂ := ⟨(csSeq rnd c s i).1, (csSeq rnd c s i).2⟩ with hz
    have hm := mul_err R z w
    have hν : ‖ζ ^ (i + 1)‖ = 1 := by rw [norm_pow, hζ, one_pow]
    have e1 : ‖w‖ ≤ 1 + 2 * 2 ^ (-53 : ℤ) := by
      have := norm_add_le (w - ζ) ζ
      rw [sub_add_cancel, hζ] at this
      linarith
    have e2 : ‖z‖ ≤ (1 + 2 ^ (-50 : ℤ)) ^ (i + 1) := by
      have := norm_add_le (z - ζ ^ (i + 1)) (ζ ^ (i + 1))
      rw [sub_add_cancel, hν] at this
      linarith
    have hA : (1 : ℝ) ≤ (1 + 2 ^ (-50 : ℤ)) ^ (i + 1) := one_le_pow₀ (by norm_num)
    have hd : (⟨(csSeq rnd c s (i + 1)).1, (csSeq rnd c s (i + 1)).2⟩ : ℂ) - ζ ^ (i + 1 + 1) =
        ((⟨rnd (rnd (z.re * w.re) - rnd (z.im * w.im)), rnd (rnd (z.re * w.im) + rnd (z.im * w.re))⟩ : ℂ) -
          z * w) + ((z - ζ ^ (i + 1)) * w + ζ ^ (i + 1) * (w - ζ)) := by
      rw [pow_succ ζ (i + 1)]
      simp only [csSeq, hz, hwd]
      ring
    rw [hd]
    refine (norm_add_le _ _).trans ?_
    have h3 := norm_add_le ((z - ζ ^ (i + 1)) * w) (ζ ^ (i + 1) * (w - ζ))
    rw [norm_mul, norm_mul, hν, one_mul] at h3
    have hzw : ‖z‖ * ‖w‖ ≤ (1 + 2 ^ (-50 : ℤ)) ^ (i + 1) * (1 + 2 * 2 ^ (-53 : ℤ)) :=
      mul_le_mul e2 e1 (norm_nonneg _) (by linarith)
    have h4 : ‖z - ζ ^ (i + 1)‖ * ‖w‖ ≤ ((1 + 2 ^ (-50 : ℤ)) ^ (i + 1) - 1) * (1 + 2 * 2 ^ (-53 : ℤ)) :=
      mul_le_mul ih e1 (norm_nonneg _) (by linarith)
    have h5 := mul_le_mul_of_nonneg_left hzw (show (0 : ℝ) ≤ 5 * 2 ^ (-53 : ℤ) by positivity)
    rw [pow_succ _ (i + 1)]
    generalize (1 + (2 : ℝ) ^ (-50 : ℤ)) ^ (i + 1) = A at *
    have ht : (8 : ℝ) * 2 ^ (-1075 : ℤ) ≤ 2 ^ (-60 : ℤ) := by
      rw [show (8 : ℝ) = 2 ^ (3 : ℤ) by norm_num, ← zpow_add₀ (by norm_num)]
      exact zpow_le_zpow_right₀ (by norm_num) (by norm_num)
    have hk : (1 + 2 * (2 : ℝ) ^ (-53 : ℤ)) + 5 * 2 ^ (-53 : ℤ) * (1 + 2 * 2 ^ (-53 : ℤ)) + 2 ^ (-60 : ℤ) ≤
      1 + 2 ^ (-50 : ℤ) := by norm_num
    have h60 : (2 : ℝ) ^ (-60 : ℤ) ≤ A * 2 ^ (-60 : ℤ) := le_mul_of_one_le_left (by positivity) hA
    have h6 := mul_le_mul_of_nonneg_left hk (show 0 ≤ A by linarith)
    generalize (2 : ℝ) ^ (-53 : ℤ) = u at *
    generalize (2 : ℝ) ^ (-60 : ℤ) = v at *
    generalize (2 : ℝ) ^ (-50 : ℤ) = k at *
    generalize (8 : ℝ) * 2 ^ (-1075 : ℤ) = t at *
    nlinarith

theorem cs_bound {i : Nat} (hi : i ≤ 2 ^ 31) : (1 + (2 : ℝ) ^ (-50 : ℤ)) ^ i - 1 ≤ i * (9 * 2 ^ (-53 : ℤ)) := by
  have hi' : (i : ℝ) ≤ 2 ^ 31 := by exact_mod_cast hi
  have h1 : (1 + (2 : ℝ) ^ (-50 : ℤ)) ^ i ≤ (1 / (1 - (2 : ℝ) ^ (-50 : ℤ))) ^ i :=
    pow_le_pow_left₀ (by positivity) (by norm_num) i
  have h2 := inv_pow_sub_le (t := (2 : ℝ) ^ (-50 : ℤ)) (e := 2 ^ (-10 : ℤ)) (n := i) (by positivity)
    (by positivity) (by norm_num)
    ((mul_le_mul_of_nonneg_right hi' (by positivity)).trans (by norm_num)) (by norm_num)
  have h3 : (1 + (2 : ℝ) ^ (-10 : ℤ)) * (i * 2 ^ (-50 : ℤ)) ≤ i * (9 * 2 ^ (-53 : ℤ)) := by
    rw [mul_left_comm]
    refine mul_le_mul_of_nonneg_left (by norm_num) (by positivity)
  exact (sub_le_sub_right h1 1).trans (h2.trans h3)

end Verif.FloatSeries
