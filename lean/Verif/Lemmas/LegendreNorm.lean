import Verif.Lemmas.LegendrePoly
import Mathlib.Tactic.Positivity

namespace Verif.Spec

open Polynomial

/-- Argument of the root in the Schmidt normalisation. -/
noncomputable def narg (n m : ℕ) : ℝ :=
  (if m = 0 then 1 else 2) * ((n - m).factorial : ℝ) / ((n + m).factorial : ℝ)

theorem schmidtNorm_eq (n m : ℕ) : schmidtNorm n m = Real.sqrt (narg n m) := rfl

theorem narg_pos (n m : ℕ) : 0 < narg n m := by
  unfold narg
  have h1 : (0 : ℝ) < ((n - m).factorial : ℝ) := by exact_mod_cast Nat.factorial_pos _
  have h2 : (0 : ℝ) < ((n + m).factorial : ℝ) := by exact_mod_cast Nat.factorial_pos _
  split <;> positivity

theorem schmidtNorm_pos (n m : ℕ) : 0 < schmidtNorm n m := Real.sqrt_pos.mpr (narg_pos n m)

theorem sqrt_sq_nat (k : ℕ) : Real.sqrt k * Real.sqrt k = k := Real.mul_self_sqrt (Nat.cast_nonneg k)

theorem sqrt_nat_pos {k : ℕ} (h : 0 < k) : 0 < Real.sqrt (k : ℝ) := Real.sqrt_pos.mpr (by exact_mod_cast h)

/-- Next order. -/
theorem norm_succ_m (n m : ℕ) (hm : 1 ≤ m) (h : m + 1 ≤ n) : schmidtNorm n (m + 1) *
    (Real.sqrt ((n - m : ℕ) : ℝ) * Real.sqrt ((n + m + 1 : ℕ) : ℝ)) = schmidtNorm n m := by
  rw [schmidtNorm_eq, schmidtNorm_eq, ← Real.sqrt_mul (Nat.cast_nonneg _),
    ← Real.sqrt_mul (narg_pos _ _).le]
  congr 1
  unfold narg
  rw [if_neg (by omega), if_neg (by omega)]
  have e1 : (n - m).factorial = (n - m) * (n - (m + 1)).factorial := by
    rw [show n - m = (n - (m + 1)) + 1 by omega, Nat.factorial_succ]
  have e2 : (n + (m + 1)).factorial = (n + m + 1) * (n + m).factorial := by
    rw [show n + (m + 1) = (n + m) + 1 by omega, Nat.factorial_succ]
  rw [e1, e2]
  have h2 : ((n + m).factorial : ℝ) ≠ 0 := by exact_mod_cast (Nat.factorial_pos _).ne'
  have h3 : ((n + m + 1 : ℕ) : ℝ) ≠ 0 := Nat.cast_ne_zero.mpr (by omega)
  simp only [Nat.cast_mul]
  field_simp

theorem norm_one (n : ℕ) (h : 1 ≤ n) : schmidtNorm n 1 *
    (Real.sqrt ((n : ℕ) : ℝ) * Real.sqrt ((n + 1 : ℕ) : ℝ)) = Real.sqrt 2 * schmidtNorm n 0 := by
  rw [schmidtNorm_eq, schmidtNorm_eq, ← Real.sqrt_mul (Nat.cast_nonneg _),
    ← Real.sqrt_mul (narg_pos _ _).le, ← Real.sqrt_mul (by norm_num)]
  congr 1
  unfold narg
  rw [if_neg (by omega), if_pos rfl]
  have e1 : (n - 0).factorial = n * (n - 1).factorial := by
    rw [show n - 0 = (n - 1) + 1 by omega, Nat.factorial_succ, show n - 1 + 1 = n by omega]
  have e2 : (n + 1).factorial = (n + 1) * (n + 0).factorial := by
    rw [Nat.factorial_succ]; simp
  rw [e1, e2]
  have h2 : ((n + 0).factorial : ℝ) ≠ 0 := by exact_mod_cast (Nat.factorial_pos _).ne'
  have h3 : ((n + 1 : ℕ) : ℝ) ≠ 0 := Nat.cast_ne_zero.mpr (by omega)
  simp only [Nat.cast_mul]
  field_simp

theorem norm_zero (n : ℕ) : schmidtNorm n 0 = 1 := by
  have h2 : (n.factorial : ℝ) ≠ 0 := by exact_mod_cast (Nat.factorial_pos _).ne'
  rw [schmidtNorm_eq]; unfold narg; simp [h2]

/-- Next degree. -/
theorem norm_succ_n (n m : ℕ) (h : m ≤ n) : schmidtNorm (n + 1) m * Real.sqrt ((n + 1 + m : ℕ) : ℝ) =
    schmidtNorm n m * Real.sqrt ((n + 1 - m : ℕ) : ℝ) := by
  rw [schmidtNorm_eq, schmidtNorm_eq, ← Real.sqrt_mul (narg_pos _ _).le,
    ← Real.sqrt_mul (narg_pos _ _).le]
  congr 1
  unfold narg
  have e1 : (n + 1 - m).factorial = (n + 1 - m) * (n - m).factorial := by
    rw [show n + 1 - m = (n - m) + 1 by omega, Nat.factorial_succ]
  have e2 : (n + 1 + m).factorial = (n + 1 + m) * (n + m).factorial := by
    rw [show n + 1 + m = (n + m) + 1 by omega, Nat.factorial_succ]
  rw [e1, e2]
  have h2 : ((n + m).factorial : ℝ) ≠ 0 := by exact_mod_cast (Nat.factorial_pos _).ne'
  have h3 : ((n + 1 + m : ℕ) : ℝ) ≠ 0 := by
    have : 0 < n + 1 + m := by omega
    exact_mod_cast this.ne'
  simp only [Nat.cast_mul]
  field_simp

/-- Ratio of the normalisations. -/
noncomputable def rho (n m : ℕ) : ℝ := schmidtNorm n m / gaussNorm n m

theorem rho_gauss (n m : ℕ) : rho n m * gaussNorm n m = schmidtNorm n m :=
  div_mul_cancel₀ _ (gaussNorm_pos n m).ne'

theorem gaussNorm_succ_m (n m : ℕ) (h : m + 1 ≤ n) :
    gaussNorm n m = ((n - m : ℕ) : ℝ) * gaussNorm n (m + 1) := by
  unfold gaussNorm
  rw [show n - m = (n - (m + 1)) + 1 by omega, Nat.factorial_succ, Nat.cast_mul]
  ring

theorem rho_zero (n : ℕ) : rho (n + 1) 0 = rho n 0 * ((2 * (n : ℝ) + 1) / ((n : ℝ) + 1)) := by
  unfold rho gaussNorm
  rw [norm_zero, norm_zero, df, Nat.sub_zero, Nat.sub_zero, Nat.factorial_succ]
  have h := (df_pos n).ne'
  have h2 : (n.factorial : ℝ) ≠ 0 := by exact_mod_cast (Nat.factorial_pos _).ne'
  have h3 : (n : ℝ) + 1 ≠ 0 := by positivity
  push_cast
  field_simp

theorem rho_zero_zero : rho 0 0 = 1 := by
  unfold rho gaussNorm; rw [norm_zero, df]; simp

theorem rho_one_zero : rho 1 0 = 1 := by
  rw [rho_zero 0, rho_zero_zero]; simp

theorem rho_one (n : ℕ) (h : 1 ≤ n) :
    rho n 1 = rho n 0 * Real.sqrt ((2 * n : ℕ) : ℝ) * (1 / Real.sqrt ((n + 1 : ℕ) : ℝ)) := by
  have h1 := norm_one n h
  have hg := gaussNorm_succ_m n 0 (by omega)
  have hp := (gaussNorm_pos n (0 + 1)).ne'
  have hn := (sqrt_nat_pos (k := n) (by omega)).ne'
  have hs := (sqrt_nat_pos (k := n + 1) (by omega)).ne'
  have e : Real.sqrt ((2 * n : ℕ) : ℝ) = Real.sqrt 2 * Real.sqrt (n : ℝ) := by
    rw [← Real.sqrt_mul (by norm_num)]; push_cast; rfl
  have hsq := sqrt_sq_nat n
  unfold rho
  rw [hg, e, Nat.sub_zero, ← hsq]
  have h1' : schmidtNorm n 1 = Real.sqrt 2 * schmidtNorm n 0 /
      (Real.sqrt ((n : ℕ) : ℝ) * Real.sqrt ((n + 1 : ℕ) : ℝ)) := by
    rw [eq_div_iff (mul_ne_zero hn hs)]; exact h1
  rw [h1']
  field_simp
  rw [Real.sqrt_sq (Real.sqrt_nonneg _)]

theorem rho_one_one : rho 1 1 = 1 := by
  rw [rho_one 1 (le_refl _), rho_one_zero]
  have : Real.sqrt ((2 : ℕ) : ℝ) ≠ 0 := (sqrt_nat_pos (by norm_num)).ne'
  norm_num at this ⊢

theorem rho_succ (n m : ℕ) (hm : 1 ≤ m) (h : m + 1 ≤ n) : rho n (m + 1) =
    rho n m * (Real.sqrt ((n - m : ℕ) : ℝ) * (1 / Real.sqrt ((n + m + 1 : ℕ) : ℝ))) := by
  have h1 := norm_succ_m n m hm h
  have hg := gaussNorm_succ_m n m h
  have hp := (gaussNorm_pos n (m + 1)).ne'
  have hn := (sqrt_nat_pos (k := n - m) (by omega)).ne'
  have hs := (sqrt_nat_pos (k := n + m + 1) (by omega)).ne'
  have hsq := sqrt_sq_nat (n - m)
  unfold rho
  rw [hg, ← h1, ← hsq]
  field_simp
  rw [Real.sqrt_sq (Real.sqrt_nonneg _)]

/-- Schmidt normalised polynomials (without the power of the cosine). -/
noncomputable def sq (n m : ℕ) : ℝ[X] := C (schmidtNorm n m) * dP m n

theorem sq_gq (n m : ℕ) : sq n m = C (rho n m) * gq n m := by
  unfold sq gq; rw [← mul_assoc, ← C_mul, rho_gauss]

/-- Recurrence of the Schmidt normalised polynomials. -/
theorem sq_rec (n m : ℕ) (h : m ≤ n) (x : ℝ) :
    Real.sqrt ((n + 2 + m : ℕ) : ℝ) * Real.sqrt ((n + 2 - m : ℕ) : ℝ) * (sq (n + 2) m).eval x =
      (2 * (n : ℝ) + 3) * x * (sq (n + 1) m).eval x -
      Real.sqrt ((n + 1 - m : ℕ) : ℝ) * Real.sqrt ((n + 1 + m : ℕ) : ℝ) * (sq n m).eval x := by
  have hr := congrArg (eval x) (dP_rec m n)
  simp only [eval_mul, eval_sub, eval_add, eval_natCast, eval_ofNat, eval_X, eval_one] at hr
  have h1 := norm_succ_n n m h
  have h2 := norm_succ_n (n + 1) m (by omega)
  rw [show n + 1 + 1 = n + 2 by ring] at h2
  have q1 := sqrt_sq_nat (n + 2 - m)
  have q2 := sqrt_sq_nat (n + 1 + m)
  have c1 : ((n + 2 - m : ℕ) : ℝ) = (n : ℝ) + 2 - m := by rw [Nat.cast_sub (by omega)]; push_cast; ring
  have c2 : ((n + 1 + m : ℕ) : ℝ) = (n : ℝ) + 1 + m := by push_cast; ring
  unfold sq
  simp only [eval_mul, eval_C]
  set A := Real.sqrt ((n + 2 + m : ℕ) : ℝ)
  set B := Real.sqrt ((n + 2 - m : ℕ) : ℝ)
  set D := Real.sqrt ((n + 1 - m : ℕ) : ℝ)
  set E := Real.sqrt ((n + 1 + m : ℕ) : ℝ)
  rw [c1] at q1
  rw [c2] at q2
  linear_combination (B * (dP m (n + 2)).eval x) * h2 +
    (schmidtNorm (n + 1) m * (dP m (n + 2)).eval x) * q1 + schmidtNorm (n + 1) m * hr -
    (E * (dP m n).eval x) * h1 + (schmidtNorm (n + 1) m * (dP m n).eval x) * q2

/-- Derivative identity of the Schmidt normalised polynomials. -/
theorem sq_deriv (n m : ℕ) (h : m ≤ n) (x : ℝ) :
    (1 - x ^ 2) * (derivative (sq (n + 1) m)).eval x =
      -(((n : ℝ) + 1 - m) * x * (sq (n + 1) m).eval x) +
        Real.sqrt ((n + 1 + m : ℕ) : ℝ) * Real.sqrt ((n + 1 - m : ℕ) : ℝ) * (sq n m).eval x := by
  have hd := congrArg (eval x) (dP_d m n)
  simp only [eval_mul, eval_sub, eval_add, eval_natCast, eval_X, eval_one, eval_neg, eval_pow] at hd
  have h1 := norm_succ_n n m h
  have q2 := sqrt_sq_nat (n + 1 + m)
  have c2 : ((n + 1 + m : ℕ) : ℝ) = (n : ℝ) + 1 + m := by push_cast; ring
  unfold sq
  rw [derivative_C_mul, ← dP_succ]
  simp only [eval_mul, eval_C]
  set D := Real.sqrt ((n + 1 - m : ℕ) : ℝ)
  set E := Real.sqrt ((n + 1 + m : ℕ) : ℝ)
  rw [c2] at q2
  linear_combination schmidtNorm (n + 1) m * hd + (E * (dP m n).eval x) * h1 -
    (schmidtNorm (n + 1) m * (dP m n).eval x) * q2

end Verif.Spec
