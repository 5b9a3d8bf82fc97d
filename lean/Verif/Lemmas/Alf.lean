import Verif.Model.ApexSh
import Verif.Spec.Alf
import Verif.Lemmas.Buffer
import Verif.Lemmas.LegendrePoly
import Mathlib.Tactic.FieldSimp
import Mathlib.Tactic.LinearCombination
import Mathlib.Tactic.Positivity
import Mathlib.Analysis.SpecialFunctions.Trigonometric.Deriv
import Mathlib.Analysis.Calculus.Deriv.Polynomial

namespace Verif.Apex

open Verif.Spec Verif.Buf Polynomial

/-- Radicand of the norm. -/
noncomputable def Na (n m : ℕ) : ℝ :=
  (2 * (n : ℝ) + 1) / 2 * ((n - m).factorial : ℝ) / ((n + m).factorial : ℝ)

theorem fullNorm_eq (n m : ℕ) : fullNorm n m = Real.sqrt (Na n m) := rfl

theorem fac_pos (n : ℕ) : (0 : ℝ) < (n.factorial : ℝ) := by exact_mod_cast Nat.factorial_pos _

theorem Na_pos (n m : ℕ) : 0 < Na n m := by
  unfold Na
  have h1 := fac_pos (n - m)
  have h2 := fac_pos (n + m)
  positivity

theorem Na_succ (n m : ℕ) (h : m ≤ n) : Na (n + 1) m =
    Na n m * ((2 * (n : ℝ) + 3) * ((n : ℝ) + 1 - m) / ((2 * (n : ℝ) + 1) * ((n : ℝ) + 1 + m))) := by
  obtain ⟨k, rfl⟩ := Nat.exists_eq_add_of_le h
  unfold Na
  rw [show m + k + 1 - m = k + 1 by omega, show m + k - m = k by omega,
    show m + k + 1 + m = (m + k + m) + 1 by omega, Nat.factorial_succ, Nat.factorial_succ]
  push_cast
  have h1 := fac_pos k
  have h2 := fac_pos (m + k + m)
  have : (0 : ℝ) < 2 * (m + k) + 1 := by positivity
  have : (m : ℝ) + k + m + 1 ≠ 0 := by positivity
  have : (m : ℝ) + k + 1 + m ≠ 0 := by positivity
  field_simp
  ring

theorem sqrt_scale {a b c : ℝ} (hc : 0 ≤ c) (h : a = c ^ 2 * b) : Real.sqrt a = c * Real.sqrt b := by
  rw [h, Real.sqrt_mul (by positivity), Real.sqrt_sq hc]

/-- The polynomial part. -/
noncomputable def bq (n m : ℕ) (x : ℝ) : ℝ := fullNorm n m * (dP m n).eval x

theorem fullP_eq (n m : ℕ) (θ : ℝ) : fullP n m θ = Real.sin θ ^ m * bq n m (Real.cos θ) := by
  unfold fullP bq dP; ring

theorem bq_zero_of_lt {n m : ℕ} (h : n < m) (x : ℝ) : bq n m x = 0 := by
  unfold bq; rw [dP_eq_zero h]; simp

/-- Sectoral functions. -/
theorem bq_diag (m : ℕ) (x : ℝ) : bq (m + 1) (m + 1) x =
    Real.sqrt ((2 * ((m + 1 : ℕ) : ℝ) + 1) / (2 * ((m + 1 : ℕ) : ℝ))) * bq m m x := by
  unfold bq
  rw [dP_diag, fullNorm_eq, fullNorm_eq]
  simp only [eval_mul, eval_add, eval_natCast, eval_ofNat, eval_one]
  have key : Real.sqrt (Na (m + 1) (m + 1)) * (2 * (m : ℝ) + 1) =
      Real.sqrt ((2 * ((m + 1 : ℕ) : ℝ) + 1) / (2 * ((m + 1 : ℕ) : ℝ))) * Real.sqrt (Na m m) := by
    rw [← Real.sqrt_mul (by positivity), mul_comm]
    symm
    refine sqrt_scale (by positivity) ?_
    unfold Na
    rw [show m + 1 - (m + 1) = 0 by omega, show m - m = 0 by omega,
      show m + 1 + (m + 1) = (m + m) + 1 + 1 by omega, Nat.factorial_succ, Nat.factorial_succ]
    have h2 := fac_pos (m + m)
    push_cast
    have : (m : ℝ) + m + 1 ≠ 0 := by positivity
    have : (m : ℝ) + m + 1 + 1 ≠ 0 := by positivity
    have : (m : ℝ) + 1 ≠ 0 := by positivity
    field_simp
    ring
  linear_combination (eval x (dP m m)) * key

/-- Recurrence in the degree. -/
theorem bq_rec (n m : ℕ) (hm : 1 ≤ m ∨ 1 ≤ n) (h : m ≤ n) (x : ℝ) : bq (n + 1) m x =
    Real.sqrt ((2 * ((n + 1 : ℕ) : ℝ) - 1) * (2 * ((n + 1 : ℕ) : ℝ) + 1) /
      ((((n + 1 : ℕ) : ℝ) - m) * (((n + 1 : ℕ) : ℝ) + m))) * x * bq n m x -
    Real.sqrt ((2 * ((n + 1 : ℕ) : ℝ) + 1) * (((n + 1 : ℕ) : ℝ) + m - 1) * (((n + 1 : ℕ) : ℝ) - m - 1) /
      ((((n + 1 : ℕ) : ℝ) - m) * (((n + 1 : ℕ) : ℝ) + m) * (2 * ((n + 1 : ℕ) : ℝ) - 3))) * bq (n - 1) m x := by
  obtain ⟨k, rfl⟩ : ∃ k, n = k + 1 := ⟨n - 1, by omega⟩
  simp only [Nat.add_sub_cancel]
  have hr := congrArg (eval x) (dP_rec m k)
  simp only [eval_mul, eval_sub, eval_add, eval_natCast, eval_ofNat, eval_X, eval_one] at hr
  have hmk : (m : ℝ) ≤ (k : ℝ) + 1 := by exact_mod_cast h
  have hp : (0 : ℝ) < (k : ℝ) + 2 - m := by linarith
  have e1 : Real.sqrt ((2 * ((k + 1 + 1 : ℕ) : ℝ) - 1) * (2 * ((k + 1 + 1 : ℕ) : ℝ) + 1) /
      ((((k + 1 + 1 : ℕ) : ℝ) - m) * (((k + 1 + 1 : ℕ) : ℝ) + m))) * fullNorm (k + 1) m =
      (2 * (k : ℝ) + 3) / ((k : ℝ) + 2 - m) * fullNorm (k + 2) m := by
    rw [fullNorm_eq, fullNorm_eq, ← Real.sqrt_mul]
    · refine sqrt_scale (by positivity) ?_
      rw [Na_succ (k + 1) m h]
      have := Na_pos (k + 1) m
      push_cast
      have : (k : ℝ) + 1 + 1 - m ≠ 0 := by linarith
      have : (k : ℝ) + 1 + 1 + m ≠ 0 := by positivity
      have : (k : ℝ) + 2 - m ≠ 0 := by linarith
      have : 2 * ((k : ℝ) + 1) + 1 ≠ 0 := by positivity
      field_simp
      ring
    · push_cast
      have : (0 : ℝ) ≤ (k : ℝ) + 1 + 1 - m := by linarith
      have : (0 : ℝ) ≤ 2 * ((k : ℝ) + 1 + 1) - 1 := by linarith [(Nat.cast_nonneg k : (0 : ℝ) ≤ k)]
      positivity
  by_cases hlt : m = k + 1
  · subst hlt
    have hz : eval x (dP (k + 1) k) = 0 := by rw [dP_eq_zero (Nat.lt_succ_self k)]; simp
    rw [hz] at hr
    unfold bq
    rw [hz]
    rw [show k + 1 + 1 = k + 2 by ring] at *
    push_cast at hr hp e1 ⊢
    have hp' : (k : ℝ) + 2 - (k + 1) ≠ 0 := hp.ne'
    have hr' : eval x (dP (k + 1) (k + 2)) = (2 * (k : ℝ) + 3) / ((k : ℝ) + 2 - (k + 1)) * x * eval x (dP (k + 1) (k + 1)) := by
      field_simp; linear_combination hr
    rw [hr']
    linear_combination -(x * eval x (dP (k + 1) (k + 1))) * e1
  · have hle : m ≤ k := by omega
    have hmk' : (m : ℝ) ≤ k := by exact_mod_cast hle
    have e2 : Real.sqrt ((2 * ((k + 1 + 1 : ℕ) : ℝ) + 1) * (((k + 1 + 1 : ℕ) : ℝ) + m - 1) * (((k + 1 + 1 : ℕ) : ℝ) - m - 1) /
        ((((k + 1 + 1 : ℕ) : ℝ) - m) * (((k + 1 + 1 : ℕ) : ℝ) + m) * (2 * ((k + 1 + 1 : ℕ) : ℝ) - 3))) * fullNorm k m =
        ((k : ℝ) + 1 + m) / ((k : ℝ) + 2 - m) * fullNorm (k + 2) m := by
      have p1 : (0 : ℝ) ≤ (k : ℝ) + 1 + 1 + m - 1 := by linarith [(Nat.cast_nonneg k : (0 : ℝ) ≤ k), (Nat.cast_nonneg m : (0 : ℝ) ≤ m)]
      have p2 : (0 : ℝ) ≤ (k : ℝ) + 1 + 1 - m - 1 := by linarith
      have p3 : (0 : ℝ) < (k : ℝ) + 1 + 1 - m := by linarith
      have p4 : (0 : ℝ) < 2 * ((k : ℝ) + 1 + 1) - 3 := by linarith [(Nat.cast_nonneg k : (0 : ℝ) ≤ k)]
      have p5 : (0 : ℝ) < (k : ℝ) + 1 - m := by linarith
      rw [fullNorm_eq, fullNorm_eq, ← Real.sqrt_mul]
      · refine sqrt_scale (by positivity) ?_
        rw [Na_succ (k + 1) m h, Na_succ k m hle]
        have := Na_pos k m
        push_cast
        have : (k : ℝ) + 1 + 1 + m ≠ 0 := by positivity
        have : (k : ℝ) + 2 - m ≠ 0 := by linarith
        have : 2 * ((k : ℝ) + 1) + 1 ≠ 0 := by positivity
        have : 2 * (k : ℝ) + 1 ≠ 0 := by positivity
        have := p4.ne'
        have := p3.ne'
        have : (k : ℝ) + 1 + m ≠ 0 := by positivity
        field_simp
        ring
      · push_cast
        positivity
    unfold bq
    rw [show k + 1 + 1 = k + 2 by ring] at *
    have hr' : eval x (dP m (k + 2)) = ((2 * (k : ℝ) + 3) * x * eval x (dP m (k + 1)) - ((k : ℝ) + 1 + m) * eval x (dP m k)) / ((k : ℝ) + 2 - m) := by
      rw [eq_div_iff hp.ne']; linear_combination hr
    rw [hr']
    have e1' := congrArg (fun t => t * (x * eval x (dP m (k + 1)))) e1
    have e2' := congrArg (fun t => t * (eval x (dP m k))) e2
    beta_reduce at e1' e2'
    have : fullNorm (k + 2) m * (((2 * (k : ℝ) + 3) * x * eval x (dP m (k + 1)) - ((k : ℝ) + 1 + m) * eval x (dP m k)) / ((k : ℝ) + 2 - m)) =
        (2 * (k : ℝ) + 3) / ((k : ℝ) + 2 - m) * fullNorm (k + 2) m * (x * eval x (dP m (k + 1))) -
        ((k : ℝ) + 1 + m) / ((k : ℝ) + 2 - m) * fullNorm (k + 2) m * (eval x (dP m k)) := by
      ring
    rw [this, ← e1', ← e2']
    ring

/-- Derivative of the polynomial part. -/
theorem bq_deriv (n m : ℕ) (h : m ≤ n) (x : ℝ) : (1 - x ^ 2) * (fullNorm (n + 1) m * (derivative (dP m (n + 1))).eval x) =
    -((((n + 1 : ℕ) : ℝ) - m) * x * bq (n + 1) m x) +
      Real.sqrt ((((n + 1 : ℕ) : ℝ) - m) * (((n + 1 : ℕ) : ℝ) + m) * (2 * ((n + 1 : ℕ) : ℝ) + 1) / (2 * ((n + 1 : ℕ) : ℝ) - 1)) *
        bq n m x := by
  have hd := congrArg (eval x) (dP_d m n)
  simp only [eval_mul, eval_sub, eval_add, eval_natCast, eval_X, eval_one, eval_neg, eval_pow] at hd
  rw [dP_succ] at hd
  have hmn : (m : ℝ) ≤ n := by exact_mod_cast h
  have e : Real.sqrt ((((n + 1 : ℕ) : ℝ) - m) * (((n + 1 : ℕ) : ℝ) + m) * (2 * ((n + 1 : ℕ) : ℝ) + 1) / (2 * ((n + 1 : ℕ) : ℝ) - 1)) *
      fullNorm n m = ((n : ℝ) + 1 + m) * fullNorm (n + 1) m := by
    have p1 : (0 : ℝ) < (n : ℝ) + 1 - m := by linarith
    have p2 : (0 : ℝ) < 2 * ((n : ℝ) + 1) - 1 := by linarith [(Nat.cast_nonneg n : (0 : ℝ) ≤ n)]
    rw [fullNorm_eq, fullNorm_eq, ← Real.sqrt_mul]
    · refine sqrt_scale (by positivity) ?_
      rw [Na_succ n m h]
      have := Na_pos n m
      push_cast
      have : (n : ℝ) + 1 + m ≠ 0 := by positivity
      have : 2 * (n : ℝ) + 1 ≠ 0 := by positivity
      have := p2.ne'
      rw [show 2 * ((n : ℝ) + 1) - 1 = 2 * n + 1 by ring]
      field_simp
      ring
    · push_cast; positivity
  unfold bq
  push_cast at e ⊢
  linear_combination (fullNorm (n + 1) m) * hd - (eval x (dP m n)) * e

/-- Orders 0 and 1. -/
theorem fullNorm_one (n : ℕ) (h : 1 ≤ n) : Real.sqrt ((n : ℝ) * (n + 1)) * fullNorm n 1 = fullNorm n 0 := by
  obtain ⟨k, rfl⟩ : ∃ k, n = k + 1 := ⟨n - 1, by omega⟩
  rw [fullNorm_eq, fullNorm_eq, ← Real.sqrt_mul (by positivity)]
  congr 1
  unfold Na
  rw [show k + 1 - 1 = k by omega, show k + 1 - 0 = k + 1 by omega, show k + 1 + 1 = (k + 1) + 1 by omega,
    show k + 1 + 0 = k + 1 by omega, Nat.factorial_succ (k + 1), Nat.factorial_succ k]
  have := fac_pos k
  push_cast
  have : (k : ℝ) + 1 ≠ 0 := by positivity
  have : (k : ℝ) + 1 + 1 ≠ 0 := by positivity
  field_simp

/-- `W`: the function divided by the sine, not yet multiplied by the order. -/
noncomputable def wf (n m : ℕ) (x y : ℝ) : ℝ := y ^ (m - 1) * bq n m x

/-- The function. -/
noncomputable def pf (n m : ℕ) (x y : ℝ) : ℝ := y ^ m * bq n m x

/-- The derivative with respect to the colatitude. -/
noncomputable def vf (n m : ℕ) (x y : ℝ) : ℝ :=
  m * y ^ (m - 1) * x * bq n m x - y ^ m * y * (fullNorm n m * (derivative (dP m n)).eval x)

theorem hasDerivAt_fullP (n m : ℕ) (θ : ℝ) : HasDerivAt (fullP n m) (vf n m (Real.cos θ) (Real.sin θ)) θ := by
  have hf : fullP n m = fun θ => Real.sin θ ^ m * (fullNorm n m * (dP m n).eval (Real.cos θ)) := by
    funext t; rw [fullP_eq]; rfl
  rw [hf]
  have h1 := (Real.hasDerivAt_sin θ).pow m
  have h2 := ((dP m n).hasDerivAt (Real.cos θ)).comp θ (Real.hasDerivAt_cos θ)
  refine (h1.mul (h2.const_mul (fullNorm n m))).congr_deriv ?_
  unfold vf bq
  simp only [Function.comp, Pi.pow_apply]
  ring

/-! ### Recurrences of the three tables -/

theorem wf_diag (m : ℕ) (hm : 1 ≤ m) (x y : ℝ) :
    wf m m x y = Real.sqrt ((2 * (m : ℝ) + 1) / (2 * m)) * pf (m - 1) (m - 1) x y := by
  obtain ⟨k, rfl⟩ : ∃ k, m = k + 1 := ⟨m - 1, by omega⟩
  unfold wf pf
  simp only [Nat.add_sub_cancel]
  rw [bq_diag]
  ring

theorem pf_wf (n m : ℕ) (hm : 1 ≤ m) (x y : ℝ) : pf n m x y = y * wf n m x y := by
  obtain ⟨k, rfl⟩ : ∃ k, m = k + 1 := ⟨m - 1, by omega⟩
  unfold wf pf
  simp only [Nat.add_sub_cancel]
  ring

theorem wf_rec (n m : ℕ) (hm : 1 ≤ m) (h : m + 1 ≤ n) (x y : ℝ) : wf n m x y =
    Real.sqrt ((2 * (n : ℝ) - 1) * (2 * n + 1) / (((n : ℝ) - m) * (n + m))) * x * wf (n - 1) m x y -
    Real.sqrt ((2 * (n : ℝ) + 1) * (n + m - 1) * (n - m - 1) / (((n : ℝ) - m) * (n + m) * (2 * n - 3))) * wf (n - 2) m x y := by
  obtain ⟨k, rfl⟩ : ∃ k, n = k + 1 := ⟨n - 1, by omega⟩
  have := bq_rec k m (Or.inl hm) (by omega) x
  unfold wf
  rw [this, show k + 1 - 1 = k by omega, show k + 1 - 2 = k - 1 by omega]
  ring

theorem vf_rec (n m : ℕ) (hm : 1 ≤ m) (h : m + 1 ≤ n) (x y : ℝ) (hxy : x ^ 2 + y ^ 2 = 1) : vf n m x y =
    (n : ℝ) * x * wf n m x y - Real.sqrt (((n : ℝ) - m) * (n + m) * (2 * n + 1) / (2 * n - 1)) * wf (n - 1) m x y := by
  obtain ⟨k, rfl⟩ : ∃ k, n = k + 1 := ⟨n - 1, by omega⟩
  have := bq_deriv k m (by omega) x
  obtain ⟨j, rfl⟩ : ∃ j, m = j + 1 := ⟨m - 1, by omega⟩
  unfold wf vf
  simp only [Nat.add_sub_cancel]
  have hy : y ^ (j + 1) * y = y ^ j * (1 - x ^ 2) := by rw [← hxy]; ring
  rw [hy, mul_assoc (y ^ j), this]
  ring

theorem vf_diag (m : ℕ) (hm : 1 ≤ m) (x y : ℝ) : vf m m x y = x * (m * wf m m x y) := by
  obtain ⟨k, rfl⟩ : ∃ k, m = k + 1 := ⟨m - 1, by omega⟩
  have h : derivative (dP (k + 1) (k + 1)) = 0 := by rw [← dP_succ]; exact dP_eq_zero (Nat.lt_succ_self _)
  unfold vf wf
  rw [h]
  simp only [eval_zero]
  ring

theorem pf_zero_rec (n : ℕ) (h : 2 ≤ n) (x y : ℝ) : pf n 0 x y =
    Real.sqrt ((2 * (n : ℝ) - 1) * (2 * n + 1)) / n * x * pf (n - 1) 0 x y -
    Real.sqrt ((2 * (n : ℝ) + 1) * (n - 1) * (n - 1) / (2 * n - 3)) / n * pf (n - 2) 0 x y := by
  obtain ⟨k, rfl⟩ : ∃ k, n = k + 1 := ⟨n - 1, by omega⟩
  have := bq_rec k 0 (Or.inr (by omega)) (by omega) x
  have hn : (0 : ℝ) < ((k + 1 : ℕ) : ℝ) := by positivity
  have s : ∀ a : ℝ, 0 ≤ a → Real.sqrt (a / (((k + 1 : ℕ) : ℝ) * ((k + 1 : ℕ) : ℝ))) = Real.sqrt a / ((k + 1 : ℕ) : ℝ) := by
    intro a ha
    rw [Real.sqrt_div ha, Real.sqrt_mul_self hn.le]
  have hk : (1 : ℝ) ≤ (k : ℝ) := by exact_mod_cast (show 1 ≤ k by omega)
  unfold pf
  rw [this, show k + 1 - 1 = k by omega, show k + 1 - 2 = k - 1 by omega]
  simp only [Nat.cast_zero, sub_zero, add_zero, pow_zero, one_mul]
  have e2 : (2 * ((k + 1 : ℕ) : ℝ) + 1) * (((k + 1 : ℕ) : ℝ) - 1) * (((k + 1 : ℕ) : ℝ) - 1) /
      (((k + 1 : ℕ) : ℝ) * ((k + 1 : ℕ) : ℝ) * (2 * ((k + 1 : ℕ) : ℝ) - 3)) =
      (2 * ((k + 1 : ℕ) : ℝ) + 1) * (((k + 1 : ℕ) : ℝ) - 1) * (((k + 1 : ℕ) : ℝ) - 1) / (2 * ((k + 1 : ℕ) : ℝ) - 3) /
      (((k + 1 : ℕ) : ℝ) * ((k + 1 : ℕ) : ℝ)) := by
    rw [div_div, mul_comm (2 * ((k + 1 : ℕ) : ℝ) - 3)]
  rw [e2, s, s]
  · push_cast
    have p1 : (0 : ℝ) ≤ (k : ℝ) + 1 - 1 := by linarith
    have p2 : (0 : ℝ) ≤ 2 * ((k : ℝ) + 1) - 3 := by linarith
    positivity
  · push_cast
    have p2 : (0 : ℝ) ≤ 2 * ((k : ℝ) + 1) - 1 := by linarith
    positivity

theorem pf_zero_zero (x y : ℝ) : pf 0 0 x y = Real.sqrt (1 / 2) := by
  unfold pf bq
  rw [dP_zero, fullNorm_eq]
  unfold Na
  simp

theorem pf_one_zero (x y : ℝ) : pf 1 0 x y = Real.sqrt ((2 * ((1 : ℕ) : ℝ) - 1) * (2 * ((1 : ℕ) : ℝ) + 1)) / ((1 : ℕ) : ℝ) * x * pf 0 0 x y := by
  rw [pf_zero_zero]
  unfold pf bq
  rw [dP_zero_one, fullNorm_eq]
  unfold Na
  simp only [eval_X, pow_zero, one_mul]
  have : Real.sqrt ((2 * ((1 : ℕ) : ℝ) + 1) / 2 * ((1 - 0).factorial : ℝ) / ((1 + 0).factorial : ℝ)) =
      Real.sqrt ((2 * ((1 : ℕ) : ℝ) - 1) * (2 * ((1 : ℕ) : ℝ) + 1)) * Real.sqrt (1 / 2) := by
    rw [← Real.sqrt_mul (by norm_num)]
    norm_num
  rw [this]
  push_cast
  ring

theorem vf_zero (n : ℕ) (h : 1 ≤ n) (x y : ℝ) : vf n 0 x y = -Real.sqrt ((n : ℝ) * (n + 1)) * pf n 1 x y := by
  have := fullNorm_one n h
  unfold vf pf bq
  rw [← this, ← dP_succ]
  simp
  ring

theorem vf_zero_zero (x y : ℝ) : vf 0 0 x y = 0 := by
  unfold vf
  rw [dP_zero]
  simp

/-! ### The loops -/

/-- Bounds of the three arrays. -/
def Dims (nmax mmax : ℕ) (s : Alf ℝ) : Prop :=
  (s.P.n = nmax ∧ s.P.m = mmax) ∧ (s.V.n = nmax ∧ s.V.m = mmax) ∧ (s.W.n = nmax ∧ s.W.m = mmax)

/-- Items which are set once, by the allocation. -/
def Zeros (mmax : ℕ) (s : Alf ℝ) : Prop :=
  s.V.at' 0 0 = 0 ∧ ∀ m, 1 ≤ m → m ≤ mmax → s.W.at' (m - 1) m = 0

/-- The orders from 1 to `m - 1` are complete. -/
def Orders (nmax m : ℕ) (x y : ℝ) (s : Alf ℝ) : Prop :=
  (s.P.at' 0 0 = pf 0 0 x y) ∧ ∀ j n, 1 ≤ j → j < m → j ≤ n → n ≤ nmax →
    s.P.at' n j = pf n j x y ∧ s.V.at' n j = vf n j x y ∧ s.W.at' n j = j * wf n j x y

/-- The order `m` is complete up to the degree `n - 1`. -/
def Degrees (m n : ℕ) (x y : ℝ) (s : Alf ℝ) : Prop :=
  ∀ k, m ≤ k → k < n → s.P.at' k m = pf k m x y ∧ (m < k → s.V.at' k m = vf k m x y) ∧
    s.W.at' k m = (if k + 3 ≤ n then (m : ℝ) else 1) * wf k m x y

theorem alfInner_spec {nmax mmax m n : ℕ} {x y : ℝ} {s : Alf ℝ} (hxy : x ^ 2 + y ^ 2 = 1) (hm : 1 ≤ m) (hmm : m ≤ mmax)
    (hn : m + 1 ≤ n) (hnn : n ≤ nmax)
    (hd : Dims nmax mmax s) (hz : Zeros mmax s) (ho : Orders nmax m x y s) (hg : Degrees m n x y s) :
    ∃ s', alfInner Real.sqrt nmax mmax x y m n s = some s' ∧ Dims nmax mmax s' ∧ Zeros mmax s' ∧
      Orders nmax m x y s' ∧ Degrees m (n + 1) x y s' := by
  obtain ⟨⟨d1, d2⟩, ⟨d3, d4⟩, ⟨d5, d6⟩⟩ := hd
  obtain ⟨⟨P1, P2, P⟩, ⟨V1, V2, V⟩, ⟨W1, W2, W⟩⟩ := s
  simp only at d1 d2 d3 d4 d5 d6
  subst d1 d2
  have w1 : W (n - 1) m = wf (n - 1) m x y := by
    have := (hg (n - 1) (by omega) (by omega)).2.2
    rwa [if_neg (by omega), one_mul] at this
  have w2 : W (n - 2) m = wf (n - 2) m x y := by
    by_cases h : m ≤ n - 2
    · have := (hg (n - 2) h (by omega)).2.2
      rwa [if_neg (by omega), one_mul] at this
    · have e : n - 2 = m - 1 := by omega
      rw [e]
      have h1 := hz.2 m hm hmm
      simp only at h1
      rw [h1]
      unfold wf
      rw [bq_zero_of_lt (by omega)]; simp
  have hm0 : m ≠ 0 := by omega
  refine ⟨⟨⟨P1, P2, fun k l => if k = n ∧ l = m then pf n m x y else P k l⟩,
    ⟨V1, V2, fun k l => if k = n ∧ l = m then vf n m x y else V k l⟩,
    ⟨W1, W2, fun k l => if k = n - 2 ∧ l = m then m * wf (n - 2) m x y else if k = n ∧ l = m then wf n m x y else W k l⟩⟩,
    ?_, ⟨⟨rfl, rfl⟩, ⟨d3, d4⟩, ⟨d5, d6⟩⟩, ⟨?_, ?_⟩, ⟨?_, ?_⟩, ?_⟩
  · have b1 : m ≤ P2 ∧ m + 1 ≤ n ∧ n ≤ P1 := ⟨hmm, hn, hnn⟩
    have b2 : 1 ≤ m ∧ m ≤ P2 ∧ m + 1 ≤ n ∧ n ≤ P1 := ⟨hm, hmm, hn, hnn⟩
    have b3 : 1 ≤ n ∧ n ≤ P1 := ⟨by omega, hnn⟩
    have b4 : 1 ≤ m ∧ m ≤ P2 := ⟨hm, hmm⟩
    have b5 : n ≤ P1 ∧ m ≤ P2 := ⟨hnn, hmm⟩
    have b6 : n - 1 ≤ P1 ∧ m ≤ P2 := ⟨by omega, hmm⟩
    have b7 : n - 2 ≤ P1 ∧ m ≤ P2 := ⟨by omega, hmm⟩
    have n1 : ¬ (n - 1 = n) := by omega
    have n2 : ¬ (n - 2 = n) := by omega
    simp only [alfInner, anm, bnm, dnm, narr, marr, Mat.rd, Mat.wr, d3, d4, d5, d6, b1, b2, b3, b4, b5, b6, b7, hm0, w1, w2,
      n1, n2, and_self, and_true, false_and, if_true, if_false, bind, Option.bind]
    rw [← wf_rec n m hm hn x y, ← vf_rec n m hm hn x y hxy, ← pf_wf n m hm]
  · have := hz.1
    simp only at this ⊢
    rw [if_neg (by omega)]; exact this
  · intro j hj hj'
    have := hz.2 j hj hj'
    simp only at this ⊢
    split
    · rename_i h
      obtain ⟨h1, rfl⟩ := h
      have : wf (n - 2) j x y = 0 := by unfold wf; rw [bq_zero_of_lt (by omega)]; simp
      rw [this, mul_zero]
    · rw [if_neg (by omega)]; exact this
  · have := ho.1
    simp only at this ⊢
    rw [if_neg (by omega)]; exact this
  · intro j k hj hjm hk hk'
    have := ho.2 j k hj hjm hk hk'
    simp only at this ⊢
    rw [if_neg (by omega), if_neg (by omega), if_neg (by omega), if_neg (by omega)]
    exact this
  · intro k hk hk'
    by_cases h : k = n
    · subst h
      simp only [and_self, if_true]
      rw [if_neg (by omega), if_neg (by omega), one_mul]
      simp
    · have := hg k hk (by omega)
      simp only [and_true] at this ⊢
      rw [if_neg h, if_neg h, if_neg h]
      refine ⟨this.1, this.2.1, ?_⟩
      by_cases h2 : k = n - 2
      · subst h2
        rw [if_pos rfl, if_pos (by omega)]
      · rw [if_neg h2, this.2.2]
        congr 1
        by_cases h3 : k + 3 ≤ n
        · rw [if_pos h3, if_pos (by omega)]
        · rw [if_neg h3, if_neg (by omega)]

theorem alfTail_spec {nmax mmax m : ℕ} {x y : ℝ} {s : Alf ℝ} (hm : 1 ≤ m) (hmm : m ≤ mmax) (hnn : m ≤ nmax)
    (hd : Dims nmax mmax s) (hz : Zeros mmax s) (ho : Orders nmax m x y s) (hg : Degrees m (nmax + 1) x y s) :
    ∃ s', alfTail nmax mmax x m s = some s' ∧ Dims nmax mmax s' ∧ Zeros mmax s' ∧ Orders nmax (m + 1) x y s' := by
  obtain ⟨⟨d1, d2⟩, ⟨d3, d4⟩, ⟨d5, d6⟩⟩ := hd
  obtain ⟨⟨P1, P2, P⟩, ⟨V1, V2, V⟩, ⟨W1, W2, W⟩⟩ := s
  simp only at d1 d2 d3 d4 d5 d6
  subst d1 d2
  have w0 : W (P1 - 1) m = wf (P1 - 1) m x y := by
    by_cases h : m ≤ P1 - 1
    · have := (hg (P1 - 1) h (by omega)).2.2
      rwa [if_neg (by omega), one_mul] at this
    · have e : P1 - 1 = m - 1 := by omega
      rw [e]
      have h1 := hz.2 m hm hmm
      simp only at h1
      rw [h1]
      unfold wf
      rw [bq_zero_of_lt (by omega)]; simp
  have w1 : W P1 m = wf P1 m x y := by
    have := (hg P1 hnn (by omega)).2.2
    rwa [if_neg (by omega), one_mul] at this
  refine ⟨⟨⟨P1, P2, P⟩, ⟨V1, V2, fun k l => if k = m ∧ l = m then vf m m x y else V k l⟩,
    ⟨W1, W2, fun k l => if k = P1 ∧ l = m then m * wf P1 m x y else
      if k = P1 - 1 ∧ l = m then m * wf (P1 - 1) m x y else W k l⟩⟩,
    ?_, ⟨⟨rfl, rfl⟩, ⟨d3, d4⟩, ⟨d5, d6⟩⟩, ⟨?_, ?_⟩, ⟨?_, ?_⟩⟩
  · have b4 : 1 ≤ m ∧ m ≤ P2 := ⟨hm, hmm⟩
    have b5 : P1 ≤ P1 ∧ m ≤ P2 := ⟨le_refl _, hmm⟩
    have b6 : P1 - 1 ≤ P1 ∧ m ≤ P2 := ⟨by omega, hmm⟩
    have b7 : m ≤ P1 ∧ m ≤ P2 := ⟨hnn, hmm⟩
    have n1 : ¬ (P1 = P1 - 1) := by omega
    have wm : (if m = P1 then (m : ℝ) * wf P1 m x y else if m = P1 - 1 then (m : ℝ) * wf (P1 - 1) m x y else W m m) =
        m * wf m m x y := by
      by_cases h1 : m = P1
      · rw [if_pos h1, ← h1]
      · rw [if_neg h1]
        by_cases h2 : m = P1 - 1
        · rw [if_pos h2, ← h2]
        · rw [if_neg h2]
          have := (hg m (le_refl _) (by omega)).2.2
          rwa [if_pos (by omega)] at this
    simp only [alfTail, marr, Mat.rd, Mat.wr, d3, d4, d5, d6, b4, b5, b6, b7, w0, w1,
      n1, and_self, and_true, false_and, if_true, if_false, bind, Option.bind]
    rw [wm, vf_diag m hm]
  · have := hz.1
    simp only at this ⊢
    rw [if_neg (by omega)]; exact this
  · intro j hj hj'
    have := hz.2 j hj hj'
    simp only at this ⊢
    split
    · omega
    · split
      · rename_i h
        obtain ⟨h1, rfl⟩ := h
        have : wf (P1 - 1) j x y = 0 := by unfold wf; rw [bq_zero_of_lt (by omega)]; simp
        rw [this, mul_zero]
      · exact this
  · exact ho.1
  · intro j k hj hjm hk hk'
    by_cases h : j = m
    · subst h
      have g := hg k hk (by omega)
      simp only [and_true] at g ⊢
      refine ⟨g.1, ?_, ?_⟩
      · by_cases h1 : k = j
        · rw [if_pos h1, h1]
        · rw [if_neg h1]; exact g.2.1 (by omega)
      · by_cases h1 : k = P1
        · rw [if_pos h1, h1]
        · rw [if_neg h1]
          by_cases h2 : k = P1 - 1
          · rw [if_pos h2, h2]
          · rw [if_neg h2]
            rw [if_pos (by omega)] at g
            exact g.2.2
    · have := ho.2 j k hj (by omega) hk hk'
      simp only at this ⊢
      rw [if_neg (by omega), if_neg (by omega), if_neg (by omega)]
      exact this

theorem alfOuter_spec {nmax mmax m : ℕ} {x y : ℝ} {s : Alf ℝ} (hxy : x ^ 2 + y ^ 2 = 1) (hm : 1 ≤ m) (hmm : m ≤ mmax)
    (hnn : mmax ≤ nmax) (hd : Dims nmax mmax s) (hz : Zeros mmax s) (ho : Orders nmax m x y s) :
    ∃ s', alfOuter Real.sqrt nmax mmax x y m s = some s' ∧ Dims nmax mmax s' ∧ Zeros mmax s' ∧ Orders nmax (m + 1) x y s' := by
  obtain ⟨⟨d1, d2⟩, ⟨d3, d4⟩, ⟨d5, d6⟩⟩ := hd
  obtain ⟨⟨P1, P2, P⟩, ⟨V1, V2, V⟩, ⟨W1, W2, W⟩⟩ := s
  simp only at d1 d2 d3 d4 d5 d6
  subst d1 d2
  have hp : P (m - 1) (m - 1) = pf (m - 1) (m - 1) x y := by
    by_cases h : m = 1
    · subst h; exact ho.1
    · exact (ho.2 (m - 1) (m - 1) (by omega) (by omega) (le_refl _) (by omega)).1
  set s1 : Alf ℝ := ⟨⟨P1, P2, fun k l => if k = m ∧ l = m then pf m m x y else P k l⟩, ⟨V1, V2, V⟩,
    ⟨W1, W2, fun k l => if k = m ∧ l = m then wf m m x y else W k l⟩⟩ with hs1
  have hd1 : Dims P1 P2 s1 := ⟨⟨rfl, rfl⟩, ⟨d3, d4⟩, ⟨d5, d6⟩⟩
  have hz1 : Zeros P2 s1 := by
    refine ⟨hz.1, ?_⟩
    intro j hj hj'
    have := hz.2 j hj hj'
    simp only [hs1] at this ⊢
    rw [if_neg (by omega)]; exact this
  have ho1 : Orders P1 m x y s1 := by
    refine ⟨?_, ?_⟩
    · have := ho.1
      simp only [hs1] at this ⊢
      rw [if_neg (by omega)]; exact this
    · intro j k hj hjm hk hk'
      have := ho.2 j k hj hjm hk hk'
      simp only [hs1] at this ⊢
      rw [if_neg (by omega), if_neg (by omega)]
      exact this
  have hg1 : Degrees m (m + 1) x y s1 := by
    intro k hk hk'
    obtain rfl : k = m := by omega
    simp only [hs1, and_self, if_true]
    rw [if_neg (by omega), one_mul]
    simp
  obtain ⟨s2, h2, hd2, hz2, ho2, hg2⟩ := forTo_inv
    (fun n s => Dims P1 P2 s ∧ Zeros P2 s ∧ Orders P1 m x y s ∧ Degrees m n x y s)
    (alfInner Real.sqrt P1 P2 x y m) (m + 1) P1 s1 (by omega) ⟨hd1, hz1, ho1, hg1⟩
    (fun n s a b ⟨c1, c2, c3, c4⟩ => alfInner_spec hxy hm hmm a b c1 c2 c3 c4)
  obtain ⟨s3, h3, hd3, hz3, ho3⟩ := alfTail_spec hm hmm (by omega) hd2 hz2 ho2 hg2
  refine ⟨s3, ?_, hd3, hz3, ho3⟩
  have b1 : 1 ≤ m ∧ m ≤ P2 := ⟨hm, hmm⟩
  have b2 : m ≤ P1 ∧ m ≤ P2 := ⟨by omega, hmm⟩
  have b3 : m - 1 ≤ P1 ∧ m - 1 ≤ P2 := ⟨by omega, by omega⟩
  have key : alfOuter Real.sqrt P1 P2 x y m ⟨⟨P1, P2, P⟩, ⟨V1, V2, V⟩, ⟨W1, W2, W⟩⟩ =
      (forTo (m + 1) P1 (alfInner Real.sqrt P1 P2 x y m) s1).bind (alfTail P1 P2 x m) := by
    simp only [alfOuter, cm, Mat.rd, Mat.wr, d5, d6, b1, b2, b3, hp, and_self, if_true, bind, Option.bind]
    rw [← wf_diag m hm, ← pf_wf m m hm, hs1]
    simp only [d5, d6]
  rw [key, h2]
  exact h3

/-- The order 0 is complete up to the degree `n - 1`. -/
def Zonal (n : ℕ) (x y : ℝ) (s : Alf ℝ) : Prop :=
  ∀ k, k < n → s.P.at' k 0 = pf k 0 x y ∧ s.V.at' k 0 = vf k 0 x y

/-- All items are complete. -/
def Complete (nmax mmax : ℕ) (x y : ℝ) (s : Alf ℝ) : Prop :=
  ∀ m n, m ≤ mmax → m ≤ n → n ≤ nmax → s.P.at' n m = pf n m x y ∧ s.V.at' n m = vf n m x y ∧
    (1 ≤ m → s.W.at' n m = m * wf n m x y)

/-- The three tables after the call; the tables left by earlier calls need only the zeros of the allocation. -/
theorem alfbasis_spec {nmax mmax : ℕ} {x y : ℝ} {s : Alf ℝ} (hxy : x ^ 2 + y ^ 2 = 1) (h1 : 1 ≤ mmax) (hnn : mmax ≤ nmax)
    (hd : Dims nmax mmax s) (hz : Zeros mmax s) :
    ∃ s', alfbasis Real.sqrt nmax mmax x y (Real.sqrt (1 / 2)) s = some s' ∧ Dims nmax mmax s' ∧ Zeros mmax s' ∧
      Complete nmax mmax x y s' := by
  obtain ⟨⟨d1, d2⟩, ⟨d3, d4⟩, ⟨d5, d6⟩⟩ := hd
  obtain ⟨⟨P1, P2, P⟩, ⟨V1, V2, V⟩, ⟨W1, W2, W⟩⟩ := s
  simp only at d1 d2 d3 d4 d5 d6
  subst d1 d2
  set s0 : Alf ℝ := ⟨⟨P1, P2, fun k l => if k = 0 ∧ l = 0 then Real.sqrt (1 / 2) else P k l⟩, ⟨V1, V2, V⟩, ⟨W1, W2, W⟩⟩ with hs0
  obtain ⟨s1, e1, hd1, hz1, ho1⟩ := forTo_inv (fun m s => Dims P1 P2 s ∧ Zeros P2 s ∧ Orders P1 m x y s)
    (alfOuter Real.sqrt P1 P2 x y) 1 P2 s0 (by omega)
    ⟨⟨⟨rfl, rfl⟩, ⟨d3, d4⟩, ⟨d5, d6⟩⟩, hz, ⟨by simp [hs0, pf_zero_zero], fun j n a b => by omega⟩⟩
    (fun m s a b ⟨c1, c2, c3⟩ => alfOuter_spec hxy a b hnn c1 c2 c3)
  -- degree 1
  obtain ⟨s2, e2, hd2, hz2, ho2, hn2⟩ : ∃ s2, alfOne Real.sqrt P1 P2 x s1 = some s2 ∧ Dims P1 P2 s2 ∧ Zeros P2 s2 ∧
      Orders P1 (P2 + 1) x y s2 ∧ Zonal 2 x y s2 := by
    obtain ⟨⟨a1, a2⟩, ⟨a3, a4⟩, ⟨a5, a6⟩⟩ := hd1
    obtain ⟨⟨p1, p2, p⟩, ⟨v1, v2, v⟩, ⟨w1, w2, w⟩⟩ := s1
    simp only at a1 a2 a3 a4 a5 a6
    subst a1 a2
    have q00 : p 0 0 = pf 0 0 x y := ho1.1
    have q11 : p 1 1 = pf 1 1 x y := (ho1.2 1 1 (le_refl _) (by omega) (le_refl _) (by omega)).1
    refine ⟨⟨⟨p1, p2, fun k l => if k = 1 ∧ l = 0 then pf 1 0 x y else p k l⟩,
      ⟨v1, v2, fun k l => if k = 1 ∧ l = 0 then vf 1 0 x y else v k l⟩, ⟨w1, w2, w⟩⟩, ?_,
      ⟨⟨rfl, rfl⟩, ⟨a3, a4⟩, ⟨a5, a6⟩⟩, ⟨by simpa using hz1.1, hz1.2⟩, ⟨by simpa using ho1.1, ?_⟩, ?_⟩
    · have b1 : (1 : ℕ) ≤ 1 ∧ 1 ≤ p1 := ⟨le_refl _, by omega⟩
      have b2 : 1 ≤ p1 ∧ 0 ≤ p2 := ⟨by omega, by omega⟩
      have b3 : 0 ≤ p1 ∧ 0 ≤ p2 := ⟨by omega, by omega⟩
      have b4 : 1 ≤ p1 ∧ 1 ≤ p2 := ⟨by omega, by omega⟩
      have n1 : ¬ ((1 : ℕ) = 0) := by omega
      simp only [alfOne, anm, en, Mat.rd, Mat.wr, a3, a4, b1, b2, b3, b4, q00, q11, n1, and_self, and_false, if_true, if_false, bind, Option.bind]
      rw [← pf_one_zero, ← vf_zero 1 (le_refl _)]
    · intro j k hj hjm hk hk'
      have := ho1.2 j k hj hjm hk hk'
      simp only at this ⊢
      rw [if_neg (by omega), if_neg (by omega)]
      exact this
    · intro k hk
      have : k = 0 ∨ k = 1 := by omega
      rcases this with rfl | rfl
      · have := hz1.1
        simp only at this
        simp [q00, this, vf_zero_zero]
      · simp
  obtain ⟨s3, e3, hd3, hz3, ho3, hn3⟩ := forTo_inv (fun n s => Dims P1 P2 s ∧ Zeros P2 s ∧ Orders P1 (P2 + 1) x y s ∧ Zonal n x y s)
    (alfZero Real.sqrt P1 P2 x) 2 P1 s2 (by omega) ⟨hd2, hz2, ho2, hn2⟩ (by
      rintro n ⟨⟨p1, p2, p⟩, ⟨v1, v2, v⟩, ⟨w1, w2, w⟩⟩ hn hn' ⟨⟨⟨a1, a2⟩, ⟨a3, a4⟩, ⟨a5, a6⟩⟩, c2, c3, c4⟩
      simp only at a1 a2 a3 a4 a5 a6
      subst a1 a2
      have q1 : p (n - 1) 0 = pf (n - 1) 0 x y := (c4 (n - 1) (by omega)).1
      have q2 : p (n - 2) 0 = pf (n - 2) 0 x y := (c4 (n - 2) (by omega)).1
      have q3 : p n 1 = pf n 1 x y := (c3.2 1 n (le_refl _) (by omega) (by omega) hn').1
      refine ⟨⟨⟨p1, p2, fun k l => if k = n ∧ l = 0 then pf n 0 x y else p k l⟩,
        ⟨v1, v2, fun k l => if k = n ∧ l = 0 then vf n 0 x y else v k l⟩, ⟨w1, w2, w⟩⟩, ?_,
        ⟨⟨rfl, rfl⟩, ⟨a3, a4⟩, ⟨a5, a6⟩⟩, ⟨?_, c2.2⟩, ⟨?_, ?_⟩, ?_⟩
      · have b1 : 1 ≤ n ∧ n ≤ p1 := ⟨by omega, hn'⟩
        have b2 : n ≤ p1 ∧ 0 ≤ p2 := ⟨hn', by omega⟩
        have b3 : n - 1 ≤ p1 ∧ 0 ≤ p2 := ⟨by omega, by omega⟩
        have b4 : n ≤ p1 ∧ 1 ≤ p2 := ⟨hn', by omega⟩
        have b5 : n - 2 ≤ p1 ∧ 0 ≤ p2 := ⟨by omega, by omega⟩
        have n1 : ¬ ((1 : ℕ) = 0) := by omega
        simp only [alfZero, anm, bnm, en, Mat.rd, Mat.wr, a3, a4, b1, b2, b3, b4, b5, q1, q2, q3, n1, and_self, and_false, if_true, if_false, bind, Option.bind]
        rw [← pf_zero_rec n hn, ← vf_zero n (by omega)]
      · have := c2.1
        simp only at this ⊢
        rw [if_neg (by omega)]; exact this
      · have := c3.1
        simp only at this ⊢
        rw [if_neg (by omega)]; exact this
      · intro j k hj hjm hk hk'
        have := c3.2 j k hj hjm hk hk'
        simp only at this ⊢
        rw [if_neg (by omega), if_neg (by omega)]
        exact this
      · intro k hk
        by_cases h : k = n
        · subst h; simp
        · have := c4 k (by omega)
          simp only at this ⊢
          rw [if_neg (by omega), if_neg (by omega)]
          exact this)
  refine ⟨s3, ?_, hd3, hz3, ?_⟩
  · have b3 : 0 ≤ P1 ∧ 0 ≤ P2 := ⟨by omega, by omega⟩
    have : alfbasis Real.sqrt P1 P2 x y (Real.sqrt (1 / 2)) ⟨⟨P1, P2, P⟩, ⟨V1, V2, V⟩, ⟨W1, W2, W⟩⟩ =
        (forTo 1 P2 (alfOuter Real.sqrt P1 P2 x y) s0).bind (fun s =>
          (alfOne Real.sqrt P1 P2 x s).bind (forTo 2 P1 (alfZero Real.sqrt P1 P2 x))) := by
      simp only [alfbasis, Mat.wr, b3, and_self, if_true, bind, Option.bind, hs0]
    rw [this, e1]
    simp only [Option.bind_some, e2]
    exact e3
  · intro m n hm hmn hn
    by_cases h : m = 0
    · subst h
      have := hn3 n (by omega)
      exact ⟨this.1, this.2, fun h => by omega⟩
    · have := ho3.2 m n (by omega) (by omega) hmn hn
      exact ⟨this.1, this.2.1, fun _ => this.2.2⟩

end Verif.Apex
