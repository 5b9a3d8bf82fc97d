/-
Specification of the accumulated error of a computation in double precision: a value `y` is
within `n` roundings of `x` relative to the magnitude `M`.
-/
import Verif.Spec.Binary64

namespace Verif.Spec

/-- `y` differs from `x` by at most the relative effect of `n` roundings on numbers of the
magnitude `M`. -/
def Rounded (n : Nat) (M x y : ℝ) : Prop := |x| ≤ M ∧ |y - x| ≤ ((1 + 2 ^ (-53 : ℤ)) ^ n - 1) * M

namespace Rounded

variable {n m : Nat} {M M' x x' y y' : ℝ}

theorem q_one (n : Nat) : (1 : ℝ) ≤ (1 + 2 ^ (-53 : ℤ)) ^ n :=
  one_le_pow₀ (le_add_of_nonneg_right (by positivity))

theorem nonneg (h : Rounded n M x y) : 0 ≤ M := (abs_nonneg x).trans h.1

theorem exact (h : |x| ≤ M) : Rounded 0 M x x := ⟨h, by simp⟩

theorem abs_le (h : Rounded n M x y) : |y| ≤ (1 + 2 ^ (-53 : ℤ)) ^ n * M := by
  have := abs_add_le (y - x) x
  rw [sub_add_cancel] at this
  have h1 := h.1
  have h2 := h.2
  linarith

theorem mono (h : Rounded n M x y) (hn : n ≤ m) (hM : M ≤ M') : Rounded m M' x y := by
  refine ⟨h.1.trans hM, h.2.trans ?_⟩
  have h0 : (1 : ℝ) ≤ 1 + 2 ^ (-53 : ℤ) := le_add_of_nonneg_right (by positivity)
  have h1 := pow_le_pow_right₀ h0 hn
  have h2 := q_one n
  have h3 := h.nonneg
  exact mul_le_mul (by linarith) hM h3 (by linarith)

theorem add (h : Rounded n M x y) (h' : Rounded n M' x' y') : Rounded n (M + M') (x + x') (y + y') := by
  refine ⟨(abs_add_le _ _).trans (add_le_add h.1 h'.1), ?_⟩
  have e : y + y' - (x + x') = (y - x) + (y' - x') := by ring
  rw [e, mul_add]
  exact (abs_add_le _ _).trans (add_le_add h.2 h'.2)

theorem neg (h : Rounded n M x y) : Rounded n M (-x) (-y) := by
  refine ⟨by rw [abs_neg]; exact h.1, ?_⟩
  rw [show -y - -x = -(y - x) by ring, abs_neg]
  exact h.2

theorem sub (h : Rounded n M x y) (h' : Rounded n M' x' y') : Rounded n (M + M') (x - x') (y - y') := by
  rw [sub_eq_add_neg, sub_eq_add_neg]
  exact h.add h'.neg

theorem mul (h : Rounded n M x y) (h' : Rounded m M' x' y') :
    Rounded (n + m) (M * M') (x * x') (y * y') := by
  have hM := h.nonneg
  have hM' := h'.nonneg
  refine ⟨by rw [abs_mul]; exact mul_le_mul h.1 h'.1 (abs_nonneg _) hM, ?_⟩
  have e : y * y' - x * x' = (y - x) * y' + x * (y' - x') := by ring
  rw [e, pow_add]
  refine (abs_add_le _ _).trans ?_
  rw [abs_mul, abs_mul]
  have h1 := mul_le_mul h.2 h'.abs_le (abs_nonneg _) (mul_nonneg (by linarith [q_one n]) hM)
  have h2 := mul_le_mul h.1 h'.2 (abs_nonneg _) hM
  nlinarith

/-- One more rounding, of a value whose magnitude is not below the normal numbers. -/
theorem rnd {rnd : ℝ → ℝ} (R : Nearest rnd) (h : Rounded n M x y) (hM : 2 ^ (-1021 : ℤ) ≤ M) :
    Rounded (n + 1) M x (rnd y) := by
  refine ⟨h.1, ?_⟩
  have hu : (0 : ℝ) < 2 ^ (-53 : ℤ) := by positivity
  have hr : |rnd y - y| ≤ 2 ^ (-53 : ℤ) * ((1 + 2 ^ (-53 : ℤ)) ^ n * M) := by
    by_cases hy : |y| ≤ 2 ^ (-1021 : ℤ)
    · refine (R.err le_rfl hy).trans ?_
      rw [show (-1021 : ℤ) - 54 = -53 + (-1022) by norm_num, zpow_add₀ (by norm_num)]
      refine mul_le_mul_of_nonneg_left ?_ hu.le
      have h1 : (2 : ℝ) ^ (-1022 : ℤ) ≤ 2 ^ (-1021 : ℤ) := zpow_le_zpow_right₀ (by norm_num) (by norm_num)
      exact (h1.trans hM).trans (le_mul_of_one_le_left h.nonneg (q_one n))
    · push Not at hy
      have h0 : 0 < |y| := lt_trans (by positivity) hy
      set k := Int.log 2 |y| with hk
      have h1 : (2 : ℝ) ^ k ≤ |y| := by
        have := Int.zpow_log_le_self (b := 2) (by norm_num) h0
        exact_mod_cast this
      have h2 : |y| < 2 ^ (k + 1) := by
        have := Int.lt_zpow_succ_log_self (b := 2) (by norm_num) |y|
        exact_mod_cast this
      have h3 : -1021 ≤ k + 1 := by
        by_contra hc
        push Not at hc
        have : (2 : ℝ) ^ (k + 1) ≤ 2 ^ (-1021 : ℤ) := zpow_le_zpow_right₀ (by norm_num) hc.le
        linarith
      have h4 := R.err h3 h2.le
      have e : (2 : ℝ) ^ (k + 1 - 54) = 2 ^ (-53 : ℤ) * 2 ^ k := by
        rw [← zpow_add₀ (by norm_num)]
        congr 1
        ring
      rw [e] at h4
      exact h4.trans (mul_le_mul_of_nonneg_left (h1.trans h.abs_le) hu.le)
  have := abs_add_le (rnd y - y) (y - x)
  rw [sub_add_sub_cancel] at this
  have h2 := h.2
  rw [pow_succ]
  nlinarith

/-- An absolute error as a number of roundings. -/
theorem of_abs (hx : |x| ≤ M) (h : |y - x| ≤ n * 2 ^ (-53 : ℤ) * M) : Rounded n M x y := by
  refine ⟨hx, h.trans ?_⟩
  refine mul_le_mul_of_nonneg_right ?_ ((abs_nonneg x).trans hx)
  have := one_add_mul_le_pow (a := (2 : ℝ) ^ (-53 : ℤ)) (le_trans (by norm_num) (by positivity : (0 : ℝ) ≤ _)) n
  linarith

/-- The bound for any reasonable number of roundings. -/
theorem le (h : Rounded n M x y) (hn : n ≤ 2 ^ 40) : |y - x| ≤ n * 2 ^ (-52 : ℤ) * M := by
  refine h.2.trans (mul_le_mul_of_nonneg_right ?_ h.nonneg)
  have hn' : (n : ℝ) ≤ 2 ^ 40 := by exact_mod_cast hn
  have hb : 1 - n * (2 : ℝ) ^ (-53 : ℤ) ≤ (1 - 2 ^ (-53 : ℤ)) ^ n := by
    have := one_add_mul_le_pow (a := -(2 : ℝ) ^ (-53 : ℤ)) (by norm_num) n
    rw [← sub_eq_add_neg] at this
    linarith
  have hs : (n : ℝ) * 2 ^ (-53 : ℤ) ≤ 1 / 2 :=
    (mul_le_mul_of_nonneg_right hn' (by positivity)).trans (by norm_num)
  have hq : (1 + (2 : ℝ) ^ (-53 : ℤ)) ^ n * (1 - 2 ^ (-53 : ℤ)) ^ n ≤ 1 := by
    rw [← mul_pow]
    exact pow_le_one₀ (by norm_num) (by norm_num)
  have e : (n : ℝ) * 2 ^ (-52 : ℤ) = 2 * (n * 2 ^ (-53 : ℤ)) := by
    rw [show (2 : ℝ) ^ (-52 : ℤ) = 2 * 2 ^ (-53 : ℤ) by norm_num]
    ring
  rw [e]
  have h1 := q_one n
  have hs0 : (0 : ℝ) ≤ n * 2 ^ (-53 : ℤ) := by positivity
  generalize (1 + (2 : ℝ) ^ (-53 : ℤ)) ^ n = q at *
  generalize (1 - (2 : ℝ) ^ (-53 : ℤ)) ^ n = p at *
  generalize (n : ℝ) * 2 ^ (-53 : ℤ) = s at *
  nlinarith

end Rounded

end Verif.Spec
