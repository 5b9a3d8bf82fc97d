import Verif.Lemmas.LegendreHigh
import Mathlib.Analysis.Calculus.Deriv.Polynomial
import Mathlib.Analysis.SpecialFunctions.Trigonometric.Deriv

set_option linter.unusedSectionVars false

namespace Verif.Legendre

open Verif.Buf Verif.Spec Polynomial

theorem schmidtP_eq (n m : Nat) (φ : ℝ) : schmidtP n m φ = Sf (Real.sin φ) (Real.cos φ) n m := by
  rw [Sf_eq, schmidtP, Verif.Spec.sq, dP]; simp only [eval_mul, eval_C]; ring

/-- The computed derivatives are derivatives. -/
theorem hasDerivAt_schmidtP (n m : Nat) (φ : ℝ) :
    HasDerivAt (schmidtP n m) (Sd (Real.sin φ) (Real.cos φ) n m) φ := by
  have hf : schmidtP n m = fun φ => Real.cos φ ^ m * (Verif.Spec.sq n m).eval (Real.sin φ) := by
    funext x; rw [schmidtP_eq, Sf_eq]
  rw [hf, Sd_eq]
  have h1 := (Real.hasDerivAt_cos φ).pow m
  have h2 := ((Verif.Spec.sq n m).hasDerivAt (Real.sin φ)).comp φ (Real.hasDerivAt_sin φ)
  have h3 := h1.mul h2
  refine HasDerivAt.congr_deriv h3 ?_
  simp only [Pi.pow_apply, Function.comp]
  ring

/-- Every place of the buffer belongs to a degree and order. -/
theorem tri_surj (N k : Nat) (h : k < tri (N + 1)) : ∃ n m, m ≤ n ∧ n ≤ N ∧ k = tri n + m := by
  induction N with
  | zero => exact ⟨0, 0, by simp [tri] at h ⊢; omega⟩
  | succ N ih =>
    by_cases hk : k < tri (N + 1)
    · obtain ⟨n, m, h1, h2, h3⟩ := ih hk; exact ⟨n, m, h1, by omega, h3⟩
    · refine ⟨N + 1, k - tri (N + 1), ?_, le_refl _, by omega⟩
      rw [show tri (N + 1 + 1) = tri (N + 1) + (N + 1 + 1) from rfl] at h; omega

theorem T.ext {o o' : Out ℝ} {N : Nat} {g d : Nat → Nat → ℝ} (h : T o N (fun _ _ => True) g d)
    (h' : T o' N (fun _ _ => True) g d) : o = o' := by
  have key : o.lp = o'.lp ∧ o.ldp = o'.ldp := by
    constructor
    all_goals
      apply List.ext_getElem?
      intro k
      by_cases hk : k < tri (N + 1)
      · obtain ⟨n, m, h1, h2, rfl⟩ := tri_surj N k hk
        have a := h.2.2 n m h1 h2 trivial
        have b := h'.2.2 n m h1 h2 trivial
        first | rw [a.1, b.1] | rw [a.2, b.2]
      · rw [List.getElem?_eq_none (by first | rw [h.1]; omega | rw [h.2.1]; omega),
          List.getElem?_eq_none (by first | rw [h'.1]; omega | rw [h'.2.1]; omega)]
  cases o; cases o'; simp at key; simp [key]

theorem tri_half (n : Nat) : n * (n + 1) / 2 = tri n := by
  rw [← tri_mul n]; exact Nat.mul_div_cancel _ (by norm_num)

/-- The function computes from the sine and the absolute value of the cosine. -/
theorem legendre_spec (small : ℝ → Bool) (h0 : small 0 = true) (scale : ℝ) (hs : scale ≠ 0) (o : Out ℝ)
    (N : Nat) (hN : 1 ≤ N) (hl : o.lp.length = tri (N + 1)) (hl' : o.ldp.length = tri (N + 1)) (φ : ℝ) :
    ∃ o', legendre Real.sin Real.sqrt small scale o N φ = some o' ∧
      T o' N (fun _ _ => True) (Sf (Real.sin φ) |Real.cos φ|) (Sd (Real.sin φ) |Real.cos φ|) := by
  have hc : Real.sqrt ((1 - Real.sin φ) * (1 + Real.sin φ)) = |Real.cos φ| := by
    rw [← Real.sqrt_sq_eq_abs]
    congr 1
    have := Real.sin_sq_add_cos_sq φ
    linear_combination -this
  unfold legendre
  simp only [hc]
  split
  · exact low_spec _ _ o hN hl hl'
  · rename_i hsm
    have hne : |Real.cos φ| ≠ 0 := by
      intro h; rw [h, h0] at hsm; simp at hsm
    refine high_spec ?_ hne hs o hN hl hl'
    rw [sq_abs]
    have := Real.sin_sq_add_cos_sq φ
    linear_combination this

end Verif.Legendre
