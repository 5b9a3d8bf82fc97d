import Verif.Model.FloatSums
import Verif.Lemmas.Buffer
import Verif.Spec.RoundingError
import Mathlib.Algebra.BigOperators.Group.Finset.Basic
import Mathlib.Algebra.Order.BigOperators.Group.Finset

set_option linter.unusedSectionVars false

namespace Verif.FloatSums

open Verif.Buf Verif.Spec

variable {rnd : ℝ → ℝ}

theorem small_le {M : ℝ} {k : ℤ} (hk : -1021 ≤ k) (h : 2 ^ k ≤ M) : 2 ^ (-1021 : ℤ) ≤ M :=
  (zpow_le_zpow_right₀ (by norm_num) hk).trans h

/-- A loop adding terms with rounding. -/
theorem acc_round (R : Nearest rnd) {body : Nat → ℝ → Option ℝ} {n m : Nat} {x M : Nat → ℝ} {v0 : ℝ}
    (h0 : Rounded m (M 0) (x 0) v0) (hM : ∀ i, 1 ≤ i → i ≤ n → 2 ^ (-1021 : ℤ) ≤ M i)
    (hb : ∀ i v, 1 ≤ i → i ≤ n → ∃ t, body i v = some (rnd (v + t)) ∧ Rounded m (M i) (x i) t) :
    ∃ v, forTo 1 n body v0 = some v ∧
      Rounded (m + n) (∑ i ∈ Finset.range (n + 1), M i) (∑ i ∈ Finset.range (n + 1), x i) v := by
  obtain ⟨v, e, p⟩ := forTo_inv (fun i v => Rounded (m + (i - 1)) (∑ k ∈ Finset.range i, M k)
    (∑ k ∈ Finset.range i, x k) v) body 1 n v0 (by omega) (by simpa using h0)
    (by
      intro i v hi hin hv
      obtain ⟨t, hb, ht⟩ := hb i v hi hin
      refine ⟨_, hb, ?_⟩
      rw [Finset.sum_range_succ, Finset.sum_range_succ]
      have := (hv.add (ht.mono (Nat.le_add_right m (i - 1)) le_rfl)).rnd R
        ((hM i hi hin).trans (le_add_of_nonneg_left hv.nonneg))
      rw [show i + 1 - 1 = i - 1 + 1 by omega]
      exact this)
  exact ⟨v, e, by simpa using p⟩

/-- The same for three sums at once. -/
theorem acc_round3 (R : Nearest rnd) {body : Nat → ℝ × ℝ × ℝ → Option (ℝ × ℝ × ℝ)} {n m1 m2 m3 : Nat}
    {x1 M1 x2 M2 x3 M3 : Nat → ℝ} {a b c : ℝ}
    (h1 : Rounded m1 (M1 0) (x1 0) a) (h2 : Rounded m2 (M2 0) (x2 0) b) (h3 : Rounded m3 (M3 0) (x3 0) c)
    (hM1 : ∀ i, 1 ≤ i → i ≤ n → 2 ^ (-1021 : ℤ) ≤ M1 i) (hM2 : ∀ i, 1 ≤ i → i ≤ n → 2 ^ (-1021 : ℤ) ≤ M2 i)
    (hM3 : ∀ i, 1 ≤ i → i ≤ n → 2 ^ (-1021 : ℤ) ≤ M3 i)
    (hb : ∀ i (v : ℝ × ℝ × ℝ), 1 ≤ i → i ≤ n → ∃ t1 t2 t3,
      body i v = some (rnd (v.1 + t1), rnd (v.2.1 + t2), rnd (v.2.2 + t3)) ∧ Rounded m1 (M1 i) (x1 i) t1 ∧
        Rounded m2 (M2 i) (x2 i) t2 ∧ Rounded m3 (M3 i) (x3 i) t3) :
    ∃ v, forTo 1 n body (a, b, c) = some v ∧
      Rounded (m1 + n) (∑ i ∈ Finset.range (n + 1), M1 i) (∑ i ∈ Finset.range (n + 1), x1 i) v.1 ∧
      Rounded (m2 + n) (∑ i ∈ Finset.range (n + 1), M2 i) (∑ i ∈ Finset.range (n + 1), x2 i) v.2.1 ∧
      Rounded (m3 + n) (∑ i ∈ Finset.range (n + 1), M3 i) (∑ i ∈ Finset.range (n + 1), x3 i) v.2.2 := by
  have step : ∀ {m i : Nat} {x M : Nat → ℝ} {v t : ℝ}, 1 ≤ i → 2 ^ (-1021 : ℤ) ≤ M i →
      Rounded (m + (i - 1)) (∑ k ∈ Finset.range i, M k) (∑ k ∈ Finset.range i, x k) v →
      Rounded m (M i) (x i) t →
      Rounded (m + (i + 1 - 1)) (∑ k ∈ Finset.range (i + 1), M k) (∑ k ∈ Finset.range (i + 1), x k)
        (rnd (v + t)) := by
    intro m i x M v t hi hM hv ht
    rw [Finset.sum_range_succ, Finset.sum_range_succ]
    have := (hv.add (ht.mono (Nat.le_add_right m (i - 1)) le_rfl)).rnd R
      (hM.trans (le_add_of_nonneg_left hv.nonneg))
    rw [show i + 1 - 1 = i - 1 + 1 by omega]
    exact this
  obtain ⟨v, e, p1, p2, p3⟩ := forTo_inv (fun i (v : ℝ × ℝ × ℝ) =>
    Rounded (m1 + (i - 1)) (∑ k ∈ Finset.range i, M1 k) (∑ k ∈ Finset.range i, x1 k) v.1 ∧
    Rounded (m2 + (i - 1)) (∑ k ∈ Finset.range i, M2 k) (∑ k ∈ Finset.range i, x2 k) v.2.1 ∧
    Rounded (m3 + (i - 1)) (∑ k ∈ Finset.range i, M3 k) (∑ k ∈ Finset.range i, x3 k) v.2.2)
    body 1 n (a, b, c) (by omega) ⟨by simpa using h1, by simpa using h2, by simpa using h3⟩
    (by
      rintro i v hi hin ⟨q1, q2, q3⟩
      obtain ⟨t1, t2, t3, hb, e1, e2, e3⟩ := hb i v hi hin
      exact ⟨_, hb, step hi (hM1 i hi hin) q1 e1, step hi (hM2 i hi hin) q2 e2, step hi (hM3 i hi hin) q3 e3⟩)
  exact ⟨v, e, by simpa using p1, by simpa using p2, by simpa using p3⟩

end Verif.FloatSums
