import Verif.Spec.Legendre
import Mathlib.Tactic.Ring
import Mathlib.Tactic.LinearCombination
import Mathlib.Tactic.FieldSimp
import Mathlib.Algebra.Polynomial.Degree.Lemmas
import Mathlib.Algebra.Polynomial.Eval.Degree

namespace Verif.Spec

open Polynomial

/-- `(d/dx)^k (x^2-1)^n` -/
noncomputable def rod (k n : ℕ) : ℝ[X] := derivative^[k] ((X ^ 2 - 1) ^ n)

theorem rod_succ (k n : ℕ) : rod (k + 1) n = derivative (rod k n) := by
  unfold rod; rw [Function.iterate_succ_apply']

theorem iter_mul_X (k : ℕ) (p : ℝ[X]) :
    derivative^[k + 1] (p * X) = derivative^[k + 1] p * X + ((k : ℝ[X]) + 1) * derivative^[k] p := by
  rw [iterate_derivative_mul_X]
  simp [nsmul_eq_mul]

/-- `D^{k+1} u^{n+1} = 2(n+1) (X D^k u^n + k D^{k-1} u^n)`, for `k+1`. -/
theorem rod_rec (k n : ℕ) : rod (k + 2) (n + 1) =
    2 * ((n : ℝ[X]) + 1) * (rod (k + 1) n * X + ((k : ℝ[X]) + 1) * rod k n) := by
  have h : derivative (((X : ℝ[X]) ^ 2 - 1) ^ (n + 1)) =
      ((2 * (n + 1) : ℕ) : ℝ[X]) * ((X ^ 2 - 1) ^ n * X) := by
    rw [derivative_pow]
    simp
    ring
  unfold rod
  rw [Function.iterate_succ_apply, h, iterate_derivative_natCast_mul, iter_mul_X]
  push_cast; ring

theorem rod_one (n : ℕ) : rod 1 (n + 1) = 2 * ((n : ℝ[X]) + 1) * (rod 0 n * X) := by
  unfold rod
  simp only [Function.iterate_one, Function.iterate_zero, id_eq]
  rw [derivative_pow]
  simp
  ring

/-- `D^2 u^{n+2} = 2(n+2)(2n+3) u^{n+1} + 4(n+1)(n+2) u^n`, differentiated `k` times. -/
theorem rod_two (k n : ℕ) : rod (k + 2) (n + 2) =
    2 * ((n : ℝ[X]) + 2) * (2 * n + 3) * rod k (n + 1) +
      4 * ((n : ℝ[X]) + 1) * (n + 2) * rod k n := by
  have h : derivative (derivative (((X : ℝ[X]) ^ 2 - 1) ^ (n + 2))) =
      ((2 * (n + 2) * (2 * n + 3) : ℕ) : ℝ[X]) * ((X ^ 2 - 1) ^ (n + 1)) +
        ((4 * (n + 1) * (n + 2) : ℕ) : ℝ[X]) * ((X ^ 2 - 1) ^ n) := by
    rw [derivative_pow]
    simp only [derivative_mul, derivative_pow, derivative_sub, derivative_X, derivative_one,
      derivative_natCast, map_natCast]
    simp
    ring
  unfold rod
  rw [Function.iterate_add_apply derivative k 2]
  simp only [Function.iterate_succ, Function.iterate_zero, Function.comp_apply, id_eq]
  rw [h, iterate_map_add, iterate_derivative_natCast_mul, iterate_derivative_natCast_mul]
  push_cast; ring

/-- `(d/dx)^m P_n` -/
noncomputable def dP (m n : ℕ) : ℝ[X] := derivative^[m] (legP n)

theorem dP_eq (m n : ℕ) : dP m n = C (1 / (2 ^ n * n.factorial : ℝ)) * rod (n + m) n := by
  unfold dP legP rod
  rw [iterate_derivative_C_mul, Nat.add_comm n m, Function.iterate_add_apply]

theorem rod_eq_dP (m n : ℕ) : rod (n + m) n = C ((2 ^ n * n.factorial : ℝ)) * dP m n := by
  rw [dP_eq, ← mul_assoc, ← C_mul]
  have : (2 ^ n * n.factorial : ℝ) ≠ 0 := by positivity
  rw [mul_one_div_cancel this]; simp

theorem dP_succ (m n : ℕ) : dP (m + 1) n = derivative (dP m n) := by
  unfold dP; rw [Function.iterate_succ_apply']

theorem fac_ne (n : ℕ) : (2 ^ n * n.factorial : ℝ) ≠ 0 := by positivity

theorem C_cancel {a : ℝ} (ha : a ≠ 0) {p q : ℝ[X]} (h : C a * p = C a * q) : p = q :=
  mul_left_cancel₀ (C_ne_zero.mpr ha) h

/-- `P'_{n+1} = x P'_n + (n+1) P_n`, differentiated `m` times. -/
theorem dP_b (m n : ℕ) : dP (m + 1) (n + 1) =
    X * dP (m + 1) n + ((n : ℝ[X]) + (m : ℝ[X]) + 1) * dP m n := by
  have h := rod_rec (n + m) n
  rw [show n + m + 2 = n + 1 + (m + 1) by ring, rod_eq_dP,
    show n + m + 1 = n + (m + 1) by ring, rod_eq_dP, rod_eq_dP] at h
  refine C_cancel (fac_ne (n + 1)) ?_
  rw [h, Nat.factorial_succ]
  simp only [map_mul, map_pow, map_natCast, C_ofNat, pow_succ]
  push_cast
  ring

/-- `P'_{n+2} - P'_n = (2n+3) P_{n+1}`, differentiated `m` times. -/
theorem dP_a (m n : ℕ) : dP (m + 1) (n + 2) =
    (2 * (n : ℝ[X]) + 3) * dP m (n + 1) + dP (m + 1) n := by
  have h := rod_two (n + 1 + m) n
  rw [show n + 1 + m + 2 = n + 2 + (m + 1) by ring, rod_eq_dP, rod_eq_dP,
    show n + 1 + m = n + (m + 1) by ring, rod_eq_dP] at h
  refine C_cancel (fac_ne (n + 2)) ?_
  simp only [Nat.factorial_succ, map_mul, map_pow, map_natCast, C_ofNat, pow_succ] at h ⊢
  push_cast at h ⊢
  linear_combination h

/-- Bonnet's recurrence. -/
theorem dP_bonnet (n : ℕ) : ((n : ℝ[X]) + 2) * dP 0 (n + 2) =
    (2 * (n : ℝ[X]) + 3) * X * dP 0 (n + 1) - ((n : ℝ[X]) + 1) * dP 0 n := by
  have h1 := rod_rec n (n + 1)
  have h2 := rod_two n n
  have e1 : rod (n + 2) (n + 2) = C ((2 ^ (n + 2) * (n + 2).factorial : ℝ)) * dP 0 (n + 2) :=
    rod_eq_dP 0 (n + 2)
  have e2 : rod (n + 1) (n + 1) = C ((2 ^ (n + 1) * (n + 1).factorial : ℝ)) * dP 0 (n + 1) :=
    rod_eq_dP 0 (n + 1)
  have e3 : rod n n = C ((2 ^ n * n.factorial : ℝ)) * dP 0 n := rod_eq_dP 0 n
  rw [show n + 1 + 1 = n + 2 by ring, e1, e2] at h1
  rw [e1, e3] at h2
  refine C_cancel (fac_ne (n + 2)) ?_
  simp only [Nat.factorial_succ, map_mul, map_pow, map_natCast, C_ofNat, pow_succ] at h1 h2 ⊢
  push_cast at h1 h2 ⊢
  linear_combination ((2 * (n : ℝ[X]) + 3)) * h1 - ((n : ℝ[X]) + 1) * h2

theorem dP_zero : dP 0 0 = 1 := by
  unfold dP legP; simp

theorem dP_zero_one : dP 0 1 = X := by
  unfold dP legP
  simp [derivative_pow]
  rw [← mul_assoc, ← C_mul]
  norm_num

theorem natDegree_legP (n : ℕ) : (legP n).natDegree ≤ n := by
  unfold legP
  refine (natDegree_C_mul_le _ _).trans ?_
  refine (natDegree_iterate_derivative _ _).trans ?_
  have h : (((X : ℝ[X]) ^ 2 - 1) ^ n).natDegree ≤ n * 2 := by
    refine natDegree_pow_le.trans (Nat.mul_le_mul_left n ?_)
    have : ((X : ℝ[X]) ^ 2 - 1).natDegree ≤ max 2 0 := by
      refine (natDegree_sub_le _ _).trans ?_
      simp
    simpa using this
  omega

theorem dP_eq_zero {m n : ℕ} (h : n < m) : dP m n = 0 :=
  iterate_derivative_eq_zero (lt_of_le_of_lt (natDegree_legP n) h)

/-- Recurrence in the degree for all orders. -/
theorem dP_rec (m n : ℕ) : ((n : ℝ[X]) + 2 - (m : ℝ[X])) * dP m (n + 2) =
    (2 * (n : ℝ[X]) + 3) * X * dP m (n + 1) - ((n : ℝ[X]) + 1 + (m : ℝ[X])) * dP m n := by
  induction m with
  | zero => simpa using dP_bonnet n
  | succ m ih =>
    have h := congrArg derivative ih
    have ha := dP_a m n
    simp only [derivative_mul, derivative_sub, derivative_add, derivative_natCast, derivative_X,
      derivative_ofNat, derivative_one, ← dP_succ] at h
    push_cast
    linear_combination h - ha

/-- `x P'_n - P'_{n-1} = n P_n`, differentiated `m` times. -/
theorem dP_c (m n : ℕ) : X * dP (m + 1) (n + 1) - dP (m + 1) n =
    ((n : ℝ[X]) + 1 - (m : ℝ[X])) * dP m (n + 1) := by
  have h1 := dP_b m (n + 1)
  have h2 := dP_a m n
  push_cast at h1
  linear_combination h2 - h1

/-- `(1-x²) P'_n = -n x P_n + n P_{n-1}`, differentiated `m` times. -/
theorem dP_d (m n : ℕ) : (1 - X ^ 2) * dP (m + 1) (n + 1) =
    -(((n : ℝ[X]) + 1 - (m : ℝ[X])) * X * dP m (n + 1)) +
      ((n : ℝ[X]) + 1 + (m : ℝ[X])) * dP m n := by
  have h1 := dP_b m n
  have h2 := dP_c m n
  linear_combination h1 - X * h2

theorem dP_diag (n : ℕ) : dP (n + 1) (n + 1) = (2 * (n : ℝ[X]) + 1) * dP n n := by
  have h := dP_b n n
  rw [dP_eq_zero (Nat.lt_succ_self n)] at h
  linear_combination h

theorem dP_subdiag (n : ℕ) : dP n (n + 1) = (2 * (n : ℝ[X]) + 1) * X * dP n n := by
  rcases n with _ | n
  · simp [dP_zero, dP_zero_one]
  · have h := dP_rec (n + 1) n
    rw [dP_eq_zero (Nat.lt_succ_self n)] at h
    push_cast at h ⊢
    linear_combination h

/-- `(2n-1)!! = 1 · 3 · ... · (2n-1)` -/
noncomputable def df : ℕ → ℝ
  | 0 => 1
  | n + 1 => (2 * (n : ℝ) + 1) * df n

theorem df_pos (n : ℕ) : 0 < df n := by
  induction n with
  | zero => simp [df]
  | succ n ih => rw [df]; positivity

theorem dP_self (n : ℕ) : dP n n = C (df n) := by
  induction n with
  | zero => simp [dP_zero, df]
  | succ n ih => rw [dP_diag, ih, df]; simp only [map_mul, map_add, map_natCast, C_ofNat, map_one]

/-- Factor of the Gauss normalisation. -/
noncomputable def gaussNorm (n m : ℕ) : ℝ := ((n - m).factorial : ℝ) / df n

theorem gaussNorm_pos (n m : ℕ) : 0 < gaussNorm n m :=
  div_pos (by exact_mod_cast Nat.factorial_pos _) (df_pos n)

/-- Gauss normalised polynomials (monic). -/
noncomputable def gq (n m : ℕ) : ℝ[X] := C (gaussNorm n m) * dP m n

theorem gq_self (n : ℕ) : gq n n = 1 := by
  unfold gq gaussNorm
  rw [dP_self, ← C_mul, Nat.sub_self]
  simp [(df_pos n).ne']

theorem gq_subdiag (n : ℕ) : gq (n + 1) n = X := by
  unfold gq gaussNorm
  rw [dP_subdiag, dP_self, show n + 1 - n = 1 by omega, df]
  have h := (df_pos n).ne'
  have h2 : (2 * (n : ℝ) + 1) ≠ 0 := by positivity
  have e : (2 * (n : ℝ[X]) + 1) = C (2 * (n : ℝ) + 1) := by
    simp only [map_mul, map_add, map_natCast, C_ofNat, map_one]
  rw [e, show C ((Nat.factorial 1 : ℝ) / ((2 * (n : ℝ) + 1) * df n)) * (C (2 * (n : ℝ) + 1) * X * C (df n)) =
    C ((Nat.factorial 1 : ℝ) / ((2 * (n : ℝ) + 1) * df n) * (2 * (n : ℝ) + 1) * df n) * X by
      simp only [map_mul]; ring]
  have : ((Nat.factorial 1 : ℝ) / ((2 * (n : ℝ) + 1) * df n) * (2 * (n : ℝ) + 1) * df n) = 1 := by
    simp; field_simp
  rw [this]; simp

theorem gq_rec (n m : ℕ) (h : m ≤ n) : gq (n + 2) m = X * gq (n + 1) m -
    C ((((n : ℝ) + 1) ^ 2 - (m : ℝ) ^ 2) / ((2 * n + 3) * (2 * n + 1))) * gq n m := by
  have hr := dP_rec m n
  unfold gq gaussNorm
  have f1 : (n + 2 - m).factorial = (n + 2 - m) * ((n + 1 - m) * (n - m).factorial) := by
    rw [show n + 2 - m = (n - m) + 1 + 1 by omega, Nat.factorial_succ, Nat.factorial_succ,
      show n + 1 - m = n - m + 1 by omega]
  have f2 : (n + 1 - m).factorial = (n + 1 - m) * (n - m).factorial := by
    rw [show n + 1 - m = (n - m) + 1 by omega, Nat.factorial_succ]
  have c1 : ((n + 2 - m : ℕ) : ℝ) = (n : ℝ) + 2 - m := by rw [Nat.cast_sub (by omega)]; push_cast; ring
  have c2 : ((n + 1 - m : ℕ) : ℝ) = (n : ℝ) + 1 - m := by rw [Nat.cast_sub (by omega)]; push_cast; ring
  have hd := (df_pos n).ne'
  have h1 : (2 * (n : ℝ) + 1) ≠ 0 := by positivity
  have h3 : (2 * (n : ℝ) + 3) ≠ 0 := by positivity
  have d2 : df (n + 2) = (2 * n + 3) * ((2 * n + 1) * df n) := by
    rw [df, df]; push_cast; ring
  have d1 : df (n + 1) = (2 * n + 1) * df n := by rw [df]
  rw [f1, f2, d1, d2]
  simp only [Nat.cast_mul, c1, c2]
  set F : ℝ := ((n - m).factorial : ℝ)
  have e1 : ((n : ℝ) + 2 - m) * (((n : ℝ) + 1 - m) * F) / ((2 * n + 3) * ((2 * n + 1) * df n)) =
      (((n : ℝ) + 1 - m) * F / ((2 * n + 3) * ((2 * n + 1) * df n))) * ((n : ℝ) + 2 - m) := by ring
  have e2 : ((n : ℝ) + 1 - m) * F / ((2 * n + 1) * df n) =
      (((n : ℝ) + 1 - m) * F / ((2 * n + 3) * ((2 * n + 1) * df n))) * (2 * n + 3) := by
    field_simp
  have e3 : C ((((n : ℝ) + 1) ^ 2 - (m : ℝ) ^ 2) / ((2 * n + 3) * (2 * n + 1))) * (C (F / df n) * dP m n) =
      C ((((n : ℝ) + 1 - m) * F / ((2 * n + 3) * ((2 * n + 1) * df n))) * ((n : ℝ) + 1 + m)) * dP m n := by
    rw [← mul_assoc, ← C_mul]
    congr 2
    field_simp
    ring
  rw [e1, e2, e3]
  simp only [map_mul, map_sub, map_add, map_natCast, C_ofNat, map_one]
  linear_combination (C (((n : ℝ) + 1 - m) * F / ((2 * n + 3) * ((2 * n + 1) * df n)))) * hr

end Verif.Spec
