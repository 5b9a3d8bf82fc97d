/-
Derivative of the potential along a curve.
-/
import Verif.Lemmas.Harmonic

set_option linter.unusedSectionVars false

namespace Verif.ShPoint

open Verif.Spec Verif.Legendre

variable (int : Bool) (N : Nat) (g h : Nat → Nat → ℝ)

theorem trig_deriv (n m : Nat) {l : ℝ → ℝ} {t l' : ℝ} (hl : HasDerivAt l l' t) :
    HasDerivAt (fun s => g n m * Real.cos (m * l s) + h n m * Real.sin (m * l s))
      (-((g n m * Real.sin (m * l t) - h n m * Real.cos (m * l t)) * m) * l') t := by
  have hm := hl.const_mul (m : ℝ)
  refine ((hm.cos.const_mul (g n m)).add (hm.sin.const_mul (h n m))).congr_deriv ?_
  ring

/-- Total derivative. -/
theorem potential_curve {a : ℝ} (ha : a ≠ 0) {r φ l : ℝ → ℝ} {t r' φ' l' : ℝ} (hr : r t ≠ 0)
    (dr : HasDerivAt r r' t) (dφ : HasDerivAt φ φ' t) (dl : HasDerivAt l l' t) {Vr Vφ Vl : ℝ}
    (hVr : HasDerivAt (fun x => potential int a N g h x (φ t) (l t)) Vr (r t))
    (hVφ : HasDerivAt (fun x => potential int a N g h (r t) x (l t)) Vφ (φ t))
    (hVl : HasDerivAt (fun x => potential int a N g h (r t) (φ t) x) Vl (l t)) :
    HasDerivAt (fun s => potential int a N g h (r s) (φ s) (l s)) (Vr * r' + Vφ * φ' + Vl * l') t := by
  rw [hVr.unique (potential_rad int N g h (φ t) (l t) ha hr),
    hVφ.unique (potential_lat int a N g h (r t) (φ t) (l t)),
    hVl.unique (potential_lon int a N g h (r t) (φ t) (l t))]
  simp only [potential_eq]
  have key : ∀ n, HasDerivAt (fun s => a * radf int a n (r s) * ∑ m ∈ Finset.range (n + 1),
      (g n m * Real.cos (m * l s) + h n m * Real.sin (m * l s)) * schmidtP n m (φ s)) _ t := fun n =>
    ((radf_deriv int ha hr n).comp t dr).mul (HasDerivAt.fun_sum (u := Finset.range (n + 1)) (fun m _ =>
      (trig_deriv g h n m dl).mul ((hasDerivAt_schmidtP n m (φ t)).comp t dφ)))
  refine (HasDerivAt.fun_sum (u := Finset.range (N + 1)) (fun n _ => key n)).congr_deriv ?_
  rw [Finset.sum_mul, Finset.sum_mul, neg_mul, Finset.sum_mul, ← Finset.sum_neg_distrib,
    ← Finset.sum_add_distrib, ← Finset.sum_add_distrib]
  refine Finset.sum_congr rfl (fun n _ => ?_)
  rw [Finset.sum_add_distrib]
  have e1 : (∑ m ∈ Finset.range (n + 1),
      -((g n m * Real.sin (m * l t) - h n m * Real.cos (m * l t)) * m) * l' *
        schmidtP n m (φ t)) = -(∑ m ∈ Finset.range (n + 1),
      (g n m * Real.sin (m * l t) - h n m * Real.cos (m * l t)) * schmidtP n m (φ t) * m) * l' := by
    rw [neg_mul, Finset.sum_mul, ← Finset.sum_neg_distrib]
    exact Finset.sum_congr rfl (fun m _ => by ring)
  have e2 : (∑ m ∈ Finset.range (n + 1), (g n m * Real.cos (m * l t) + h n m * Real.sin (m * l t)) *
      (Sd (Real.sin (φ t)) (Real.cos (φ t)) n m * φ')) = (∑ m ∈ Finset.range (n + 1),
      (g n m * Real.cos (m * l t) + h n m * Real.sin (m * l t)) *
        Sd (Real.sin (φ t)) (Real.cos (φ t)) n m) * φ' := by
    rw [Finset.sum_mul]
    exact Finset.sum_congr rfl (fun m _ => by ring)
  rw [e1, e2]
  simp only [Function.comp]
  ring

end Verif.ShPoint
