/-
C84: the accuracy of the radial powers and of the cosines and sines in double precision.
-/
import Verif.Lemmas.FloatSeries
import Verif.Lemmas.RadPow
import Mathlib.Analysis.Real.Pi.Bounds

namespace Verif.Props

open Verif.Buf Verif.Spec Verif.FloatSeries

/-- C84: without rounding the functions are the exact ones. -/
theorem C84_exact {K : Type} [Field K] [LinearOrder K] (cos sin : K → K) (pi : K) (b : List K)
    (cs : List (K × K)) (x ref : K) (degree : Int) (flag : Bool) :
    relradpowF id b x degree ref flag = RadPow.relradpow b x degree ref flag ∧
    loncossinF id cos sin pi cs x degree flag = Fourier.loncossin cos sin (pi / 180) cs x degree flag :=
  ⟨rfl, rfl⟩

/-- C84: the radial powers in double precision.  The relative error of the `k`-th value is at
most `(2k + 3) 2^-52`, as long as the power itself is not too close to the least normal number;
all the accesses are inside of the array, whatever it held before. -/
theorem C84_radial {rnd : ℝ → ℝ} (R : Nearest rnd) (b : List ℝ) (r a : ℝ) (degree : Nat)
    (isInternal : Bool) (hb : b.length = degree + 1) (ha : 0 < a) (hr : 0 < r) (hd : degree < 2 ^ 31) :
    ∃ l, relradpowF rnd b r degree a isInternal = some (some l) ∧ l.length = degree + 1 ∧
      ∀ k ≤ degree, ∃ v, l[k]? = some v ∧
        ∀ exact : ℝ, exact = (if isInternal then (a / r) ^ ((k : Int) + 2) else (r / a) ^ ((k : Int) - 1)) →
        2 ^ (-1020 : ℤ) ≤ exact → 2 ^ (-1020 : ℤ) ≤ r / a → 2 ^ (-1020 : ℤ) ≤ a / r →
          |v - exact| ≤ (2 * k + 3) * 2 ^ (-52 : ℤ) * exact ∧ v ≤ 2 * exact := by
  have hra : 0 < r / a := div_pos hr ha
  have har : 0 < a / r := div_pos ha hr
  have hrel : 2 ^ (-1020 : ℤ) ≤ r / a → W 1 (r / a) (rnd (r / a)) :=
    fun h => (W.refl hra).rnd R (by norm_num) h
  have hinv : 2 ^ (-1020 : ℤ) ≤ r / a → 2 ^ (-1020 : ℤ) ≤ a / r →
      W 2 (a / r) (rnd (1 / rnd (r / a))) := by
    intro h h'
    have := (hrel h).inv
    rw [one_div_div] at this
    exact this.rnd R (by norm_num) h'
  have hone : (2 : ℝ) ^ (-1020 : ℤ) ≤ 1 := zpow_le_one_of_nonpos₀ (by norm_num) (by norm_num)
  have fin : ∀ (k : Nat) {v e : ℝ}, k ≤ degree → 0 < e → |v - e| ≤ (2 * k + 3) * 2 ^ (-52 : ℤ) * e →
      |v - e| ≤ (2 * k + 3) * 2 ^ (-52 : ℤ) * e ∧ v ≤ 2 * e := by
    intro k v e hk he h
    refine ⟨h, ?_⟩
    have hk' : (k : ℝ) ≤ 2 ^ 31 := by exact_mod_cast (show k ≤ 2 ^ 31 by omega)
    have : (2 * k + 3 : ℝ) * 2 ^ (-52 : ℤ) ≤ 1 := by
      refine (mul_le_mul_of_nonneg_right (show (2 * k + 3 : ℝ) ≤ 2 ^ 33 by linarith) (by positivity)).trans ?_
      norm_num
    have := mul_le_mul_of_nonneg_right this he.le
    linarith [(abs_le.mp h).2]
  unfold relradpowF
  rw [if_neg (by omega), if_neg (not_le.mpr ha), Int.toNat_natCast]
  cases isInternal
  · obtain ⟨l, h1, h2, h3⟩ := externalF_spec rnd b degree (rnd (r / a)) (by omega)
    refine ⟨l, by simp only [Bool.false_eq_true, if_false, h1], by omega, fun k hk => ?_⟩
    refine ⟨_, (h3 k hk).2, ?_⟩
    intro e he g1 g2 g3
    simp only [Bool.false_eq_true, if_false] at he
    rcases k with _ | k
    · simp only [if_true]
      have he' : e = a / r := by
        rw [he]
        norm_num
      rw [he']
      refine fin 0 (by omega) har (((hinv g2 g3).err (by norm_num)).trans ?_)
      refine mul_le_mul_of_nonneg_right ?_ har.le
      norm_num
    · have he' : e = (r / a) ^ k := by
        rw [he, show (((k + 1 : Nat) : Int) - 1) = ((k : Nat) : Int) by push_cast; ring, zpow_natCast]
      simp only [Nat.add_one_ne_zero, if_false, Nat.add_sub_cancel]
      have hw := extSeq_W R hra (hrel g2) (fun j hj => pow_range hra hone (by rw [← he']; exact g1) hj)
        (by omega) k le_rfl
      rw [← he'] at hw
      refine fin (k + 1) (by omega) hw.1 ((hw.err (by omega)).trans ?_)
      refine mul_le_mul_of_nonneg_right ?_ hw.1.le
      rw [show (2 : ℝ) ^ (-52 : ℤ) = 2 * 2 ^ (-53 : ℤ) by norm_num, ← mul_assoc, ← mul_assoc]
      refine mul_le_mul_of_nonneg_right ?_ (by positivity)
      push_cast
      have : (0 : ℝ) ≤ k := by positivity
      have h19 : (2 : ℝ) ^ (-19 : ℤ) ≤ 1 := by norm_num
      nlinarith
  · obtain ⟨l, h1, h2, h3⟩ := internalF_spec rnd b degree (rnd (r / a)) (by omega)
    refine ⟨l, by simp only [if_true, h1], by omega, fun k hk => ?_⟩
    refine ⟨_, (h3 k hk).2, ?_⟩
    intro e he g1 g2 g3
    simp only [if_true] at he
    have he' : e = (a / r) ^ (k + 1 + 1) := by
      rw [he, show ((k : Int) + 2) = ((k + 1 + 1 : Nat) : Int) by push_cast; ring, zpow_natCast]
    have hw := intSeq_W R har (hinv g2 g3)
      (fun j hj => pow_range har hone (by rw [← he']; exact g1) hj) (by omega) (k + 1) le_rfl
    rw [← he'] at hw
    refine fin k (by omega) hw.1 ((hw.err (by omega)).trans ?_)
    refine mul_le_mul_of_nonneg_right ?_ hw.1.le
    rw [show (2 : ℝ) ^ (-52 : ℤ) = 2 * 2 ^ (-53 : ℤ) by norm_num, ← mul_assoc, ← mul_assoc]
    refine mul_le_mul_of_nonneg_right ?_ (by positivity)
    push_cast
    have : (0 : ℝ) ≤ k := by positivity
    have h19 : (2 : ℝ) ^ (-19 : ℤ) ≤ 1 / 8 := by norm_num
    generalize (2 : ℝ) ^ (-19 : ℤ) = s at h19
    have := mul_le_mul_of_nonneg_right h19 this
    nlinarith

/-- C84: close to the limit of the format the powers are not accurate: the least power above is
lost completely. -/
theorem C84_underflow {rnd : ℝ → ℝ} (R : Nearest rnd) (b : List ℝ) (hb : b.length = 1074) :
    ∃ l v, relradpowF rnd b 2 1073 1 true = some (some l) ∧ l[1073]? = some v ∧
      (1 / 2 : ℝ) ^ (1073 + 2) ≤ |v - (1 / 2) ^ (1073 + 2)| := by
  obtain ⟨l, h1, h2, h3⟩ := internalF_spec rnd b 1073 (rnd (2 / 1)) (by omega)
  refine ⟨l, _, ?_, (h3 1073 le_rfl).2, ?_⟩
  · unfold relradpowF
    rw [if_neg (by norm_num), if_neg (by norm_num)]
    simp only [if_true]
    exact congrArg some h1
  · obtain ⟨n, hn⟩ := F64.multiple (R.mem
      (intSeq rnd (rnd (1 / rnd (2 / 1))) 1073 * rnd (1 / rnd (2 / 1))))
    simp only []
    rw [show intSeq rnd (rnd (1 / rnd (2 / 1))) (1073 + 1) = _ from hn]
    have e : (2 : ℝ) ^ (-1074 : ℤ) = 2 * (1 / 2) ^ (1073 + 2) := by
      rw [show (-1074 : ℤ) = -((1074 : ℕ) : ℤ) by norm_num, zpow_neg, zpow_natCast, pow_succ (1 / 2 : ℝ) 1074]
      rw [one_div, inv_pow]
      ring
    have hp : (0 : ℝ) < (1 / 2) ^ (1073 + 2) := by positivity
    rw [e]
    generalize (1 / 2 : ℝ) ^ (1073 + 2) = p at hp
    rw [show (n : ℝ) * (2 * p) - p = ((2 * n - 1 : ℤ) : ℝ) * p by push_cast; ring, abs_mul, abs_of_pos hp]
    have : 1 ≤ |2 * n - 1| := Int.one_le_abs (by omega)
    have : (1 : ℝ) ≤ |((2 * n - 1 : ℤ) : ℝ)| := by
      rw [← Int.cast_abs]
      exact_mod_cast this
    nlinarith

/-- The angle in radians in double precision. -/
theorem angle_err {rnd : ℝ → ℝ} (R : Nearest rnd) (lon : ℝ) :
    |rnd (lon * dg2radF rnd Real.pi) - lon * (Real.pi / 180)| ≤
      4 * 2 ^ (-53 : ℤ) * |lon * (Real.pi / 180)| + 2 ^ (-1075 : ℤ) := by
  have hpi : 2 ^ (-1021 : ℤ) ≤ |Real.pi| := by
    rw [abs_of_pos Real.pi_pos]
    exact (zpow_le_one_of_nonpos₀ (by norm_num) (by norm_num)).trans (by linarith [Real.pi_gt_three])
  have h1 := rel_normal R hpi
  rw [abs_of_pos Real.pi_pos] at h1
  have hu : (0 : ℝ) < 2 ^ (-53 : ℤ) := by positivity
  have hu' : (2 : ℝ) ^ (-53 : ℤ) ≤ 1 / 8 := by norm_num
  have hr := abs_le.mp h1
  have hr3 : 2 ≤ rnd Real.pi := by
    have := mul_le_mul_of_nonneg_right hu' Real.pi_pos.le
    have h3 := hr.1
    generalize (2 : ℝ) ^ (-53 : ℤ) * Real.pi = w at this h3
    linarith [Real.pi_gt_three]
  have h2 := rel_normal R (x := rnd Real.pi / 180) (by
    rw [abs_of_pos (by positivity)]
    refine le_trans (b := 2 ^ (-10 : ℤ)) (zpow_le_zpow_right₀ (by norm_num) (by norm_num)) ?_
    norm_num
    linarith)
  rw [abs_of_pos (show 0 < rnd Real.pi / 180 by positivity)] at h2
  have h2' := abs_le.mp h2
  have h3 := R.rel (lon * dg2radF rnd Real.pi)
  unfold dg2radF at h3 ⊢
  have hppos := Real.pi_pos
  set p := Real.pi with hp
  set d := rnd (rnd p / 180) with hd
  have hu2 : (2 : ℝ) ^ (-53 : ℤ) * 2 ^ (-53 : ℤ) ≤ 1 / 8 * 2 ^ (-53 : ℤ) :=
    mul_le_mul_of_nonneg_right hu' hu.le
  have hdd : |d - p / 180| ≤ (2 * 2 ^ (-53 : ℤ) + 2 ^ (-53 : ℤ) * 2 ^ (-53 : ℤ)) * (p / 180) := by
    generalize (2 : ℝ) ^ (-53 : ℤ) = u at *
    rw [abs_le]
    constructor <;> nlinarith
  have hl : |lon * d - lon * (p / 180)| ≤
      (2 * 2 ^ (-53 : ℤ) + 2 ^ (-53 : ℤ) * 2 ^ (-53 : ℤ)) * |lon * (p / 180)| := by
    rw [← mul_sub, abs_mul, abs_mul, abs_of_pos (show 0 < p / 180 by positivity)]
    have := mul_le_mul_of_nonneg_left hdd (abs_nonneg lon)
    linarith
  have hx : |lon * d| ≤ |lon * d - lon * (p / 180)| + |lon * (p / 180)| := by
    have := abs_add_le (lon * d - lon * (p / 180)) (lon * (p / 180))
    rwa [sub_add_cancel] at this
  have ht := abs_add_le (rnd (lon * d) - lon * d) (lon * d - lon * (p / 180))
  rw [sub_add_sub_cancel] at ht
  have hX := abs_nonneg (lon * (p / 180))
  generalize |lon * (p / 180)| = X at *
  generalize (2 : ℝ) ^ (-53 : ℤ) = u at *
  have h5 := mul_le_mul_of_nonneg_left hx hu.le
  have h6 := mul_le_mul_of_nonneg_left hl hu.le
  have h7 := mul_le_mul_of_nonneg_right hu2 hX
  have h8 := mul_le_mul_of_nonneg_right h7 hu.le
  have h9 := mul_nonneg hu.le hX
  nlinarith

theorem cis_pow (x : ℝ) (k : Nat) :
    (⟨Real.cos x, Real.sin x⟩ : ℂ) ^ k = ⟨Real.cos (k * x), Real.sin (k * x)⟩ := by
  induction k with
  | zero => simp; rfl
  | succ k ih =>
    rw [pow_succ, ih]
    have e : ((k + 1 : Nat) : ℝ) * x = k * x + x := by push_cast; ring
    rw [e]
    refine Complex.ext ?_ ?_
    · rw [Complex.mul_re, Real.cos_add]
    · rw [Complex.mul_im, Real.sin_add]
      simp only
      ring

/-- C84: the cosines and sines of the multiples of the longitude in double precision, with both
algorithms, for a library whose cosine and sine are within `2^-53` of the exact values.  The
error of the `k`-th pair is at most proportional to `k`: the recurrence does not amplify the
errors. -/
theorem C84_loncossin {rnd cos sin : ℝ → ℝ} (R : Nearest rnd)
    (hcos : ∀ x, |cos x - Real.cos x| ≤ 2 ^ (-53 : ℤ)) (hsin : ∀ x, |sin x - Real.sin x| ≤ 2 ^ (-53 : ℤ))
    (b : List (ℝ × ℝ)) (lon : ℝ) (degree : Nat) (fast : Bool) (hb : b.length = degree + 1)
    (hd : degree < 2 ^ 31) :
    ∃ l, loncossinF rnd cos sin Real.pi b lon degree fast = some (some l) ∧ l.length = degree + 1 ∧
      ∀ k ≤ degree, ∃ c s, l[k]? = some (c, s) ∧
        |c - Real.cos (k * (lon * (Real.pi / 180)))| ≤
          (k * (10 + 6 * |lon * (Real.pi / 180)|) + 1) * 2 ^ (-53 : ℤ) ∧
        |s - Real.sin (k * (lon * (Real.pi / 180)))| ≤
          (k * (10 + 6 * |lon * (Real.pi / 180)|) + 1) * 2 ^ (-53 : ℤ) := by
  have ha := angle_err R lon
  unfold loncossinF
  rw [if_neg (by omega), Int.toNat_natCast]
  set y := rnd (lon * dg2radF rnd Real.pi) with hy
  set x := lon * (Real.pi / 180) with hx
  have hX := abs_nonneg x
  have hu : (0 : ℝ) < 2 ^ (-53 : ℤ) := by positivity
  have hu' : (2 : ℝ) ^ (-53 : ℤ) ≤ 1 / 8 := by norm_num
  have ht : (2 : ℝ) ^ (-1075 : ℤ) ≤ 2 ^ (-53 : ℤ) / 8 := by
    rw [show (2 : ℝ) ^ (-53 : ℤ) / 8 = 2 ^ (-56 : ℤ) by norm_num]
    exact zpow_le_zpow_right₀ (by norm_num) (by norm_num)
  have hxy : ∀ k : Nat, |(k : ℝ) * y - k * x| ≤ k * (4 * 2 ^ (-53 : ℤ) * |x| + 2 ^ (-53 : ℤ) / 8) := by
    intro k
    rw [← mul_sub, abs_mul, abs_of_nonneg (by positivity : (0 : ℝ) ≤ k)]
    exact mul_le_mul_of_nonneg_left (ha.trans (by linarith)) (by positivity)
  cases fast
  · obtain ⟨l, h1, h2, h3⟩ := fsCosSinRefF_spec rnd cos sin b degree y (by omega)
    refine ⟨l, by simp only [Bool.false_eq_true, if_false, h1], by omega, fun k hk => ?_⟩
    refine ⟨_, _, (h3 k hk).2, ?_⟩
    have hk0 : (0 : ℝ) ≤ k := by positivity
    have hang : |rnd ((k : ℝ) * y) - k * x| ≤ k * (6 * 2 ^ (-53 : ℤ) * |x| + 2 ^ (-53 : ℤ)) := by
      have g1 : |rnd ((k : ℝ) * y) - k * y| ≤ 2 ^ (-53 : ℤ) * |k * y| + k * (2 ^ (-53 : ℤ) / 8) := by
        rcases Nat.eq_zero_or_pos k with rfl | hp
        · simp [R.zero]
        · have : (1 : ℝ) ≤ k := by exact_mod_cast hp
          have := R.rel ((k : ℝ) * y)
          generalize (2 : ℝ) ^ (-53 : ℤ) = u at *
          nlinarith
      have g2 := hxy k
      have g3 : |(k : ℝ) * y| ≤ |(k : ℝ) * y - k * x| + k * |x| := by
        have := abs_add_le ((k : ℝ) * y - k * x) (k * x)
        rw [sub_add_cancel, abs_mul (k : ℝ) x, abs_of_nonneg hk0] at this
        exact this
      have g4 := abs_add_le (rnd ((k : ℝ) * y) - k * y) (k * y - k * x)
      rw [sub_add_sub_cancel] at g4
      generalize (2 : ℝ) ^ (-53 : ℤ) = u at *
      have hkX := mul_nonneg hk0 hX
      have g5 := mul_le_mul_of_nonneg_left (g3.trans (add_le_add_left g2 _)) hu.le
      have g6 : u * (k * (4 * u * |x| + u / 8)) ≤ 1 / 8 * (k * (4 * u * |x| + u / 8)) :=
        mul_le_mul_of_nonneg_right hu' (by positivity)
      have g7 : 0 ≤ k * u := by positivity
      have g8 : 0 ≤ u * (k * |x|) := by positivity
      nlinarith
    have c1 := Real.abs_cos_sub_cos_le (rnd ((k : ℝ) * y)) (k * x)
    have c2 := Real.abs_sin_sub_sin_le (rnd ((k : ℝ) * y)) (k * x)
    have d1 := abs_add_le (cos (rnd ((k : ℝ) * y)) - Real.cos (rnd ((k : ℝ) * y)))
      (Real.cos (rnd ((k : ℝ) * y)) - Real.cos (k * x))
    have d2 := abs_add_le (sin (rnd ((k : ℝ) * y)) - Real.sin (rnd ((k : ℝ) * y)))
      (Real.sin (rnd ((k : ℝ) * y)) - Real.sin (k * x))
    rw [sub_add_sub_cancel] at d1 d2
    have e1 := hcos (rnd ((k : ℝ) * y))
    have e2 := hsin (rnd ((k : ℝ) * y))
    have hku : (0 : ℝ) ≤ k * 2 ^ (-53 : ℤ) := by positivity
    generalize (2 : ℝ) ^ (-53 : ℤ) = u at *
    constructor <;> nlinarith
  · obtain ⟨l, h1, h2, h3⟩ := fsCosSinF_spec rnd cos sin b degree y (by omega)
    refine ⟨l, by simp only [if_true, h1], by omega, fun k hk => ?_⟩
    have hl := (h3 k hk).2
    rcases k with _ | k
    · refine ⟨1, 0, by simpa using hl, ?_, ?_⟩
      · simp
      · simp
    · refine ⟨(csSeq rnd (cos y) (sin y) k).1, (csSeq rnd (cos y) (sin y) k).2, by simpa using hl, ?_⟩
      have hk0 : (0 : ℝ) ≤ ((k + 1 : Nat) : ℝ) := by positivity
      have hz : ‖(⟨Real.cos y, Real.sin y⟩ : ℂ)‖ = 1 := by
        rw [Complex.norm_def, Complex.normSq_apply, ← sq, ← sq, Real.cos_sq_add_sin_sq, Real.sqrt_one]
      have hw : ‖(⟨cos y, sin y⟩ : ℂ) - ⟨Real.cos y, Real.sin y⟩‖ ≤ 2 * 2 ^ (-53 : ℤ) := by
        refine (Complex.norm_le_abs_re_add_abs_im _).trans ?_
        simp only [Complex.sub_re, Complex.sub_im]
        linarith [hcos y, hsin y]
      have he := csSeq_err R hz hw k
      rw [cis_pow] at he
      have hbd := he.trans (cs_bound (show k + 1 ≤ 2 ^ 31 by omega))
      have r1 := (Complex.abs_re_le_norm _).trans hbd
      have r2 := (Complex.abs_im_le_norm _).trans hbd
      simp only [Complex.sub_re, Complex.sub_im] at r1 r2
      have c1 := Real.abs_cos_sub_cos_le (((k + 1 : Nat) : ℝ) * y) ((k + 1 : Nat) * x)
      have c2 := Real.abs_sin_sub_sin_le (((k + 1 : Nat) : ℝ) * y) ((k + 1 : Nat) * x)
      have d1 := abs_add_le ((csSeq rnd (cos y) (sin y) k).1 - Real.cos (((k + 1 : Nat) : ℝ) * y))
        (Real.cos (((k + 1 : Nat) : ℝ) * y) - Real.cos ((k + 1 : Nat) * x))
      have d2 := abs_add_le ((csSeq rnd (cos y) (sin y) k).2 - Real.sin (((k + 1 : Nat) : ℝ) * y))
        (Real.sin (((k + 1 : Nat) : ℝ) * y) - Real.sin ((k + 1 : Nat) * x))
      rw [sub_add_sub_cancel] at d1 d2
      have g2 := hxy (k + 1)
      generalize ((k + 1 : Nat) : ℝ) = m at *
      have hku : (0 : ℝ) ≤ m * 2 ^ (-53 : ℤ) := by positivity
      have hkx : (0 : ℝ) ≤ m * 2 ^ (-53 : ℤ) * |x| := by positivity
      generalize (2 : ℝ) ^ (-53 : ℤ) = u at *
      constructor <;> nlinarith

-- radius 6771.2, reference radius 6371.2, degree 13
example : ∃ rnd, Nearest rnd ∧ ∃ (l : List ℝ) (v : ℝ),
    relradpowF rnd (List.replicate 14 7) 6771.2 13 6371.2 true = some (some l) ∧
    l[13]? = some v ∧ |v - (6371.2 / 6771.2) ^ 15| ≤ 29 * 2 ^ (-52 : ℤ) * (6371.2 / 6771.2) ^ 15 := by
  obtain ⟨rnd, R⟩ := Nearest.exists
  obtain ⟨l, h1, -, h3⟩ := C84_radial R (List.replicate 14 7) 6771.2 6371.2 13 true rfl (by norm_num)
    (by norm_num) (by norm_num)
  obtain ⟨v, h4, h5⟩ := h3 13 le_rfl
  have hs : ∀ y : ℝ, 2 ^ (-10 : ℤ) ≤ y → 2 ^ (-1020 : ℤ) ≤ y :=
    fun y hy => (zpow_le_zpow_right₀ (by norm_num) (by norm_num)).trans hy
  have := (h5 ((6371.2 / 6771.2) ^ 15) (by rw [if_pos rfl]; norm_num) (hs _ (by norm_num))
    (hs _ (by norm_num)) (hs _ (by norm_num))).1
  refine ⟨rnd, R, l, v, h1, h4, this.trans (le_of_eq ?_)⟩
  norm_num

-- the rounded cosine and sine are such a library; 13-th pair at the longitude 180
example : ∃ rnd cos sin, Nearest rnd ∧ ∃ (l : List (ℝ × ℝ)) (c s : ℝ),
    loncossinF rnd cos sin Real.pi (List.replicate 14 (7, 7)) 180 13 true = some (some l) ∧
    l[13]? = some (c, s) ∧ |c - (-1)| ≤ 2 ^ (-44 : ℤ) := by
  obtain ⟨rnd, R⟩ := Nearest.exists
  have hone : ∀ y : ℝ, |y| ≤ 1 → |rnd y - y| ≤ 2 ^ (-53 : ℤ) := by
    intro y hy
    refine (R.err (k := 0) (by norm_num) (by simpa using hy)).trans ?_
    exact zpow_le_zpow_right₀ (by norm_num) (by norm_num)
  obtain ⟨l, h1, -, h3⟩ := C84_loncossin (cos := fun y => rnd (Real.cos y)) (sin := fun y => rnd (Real.sin y)) R
    (fun y => hone _ (Real.abs_cos_le_one y)) (fun y => hone _ (Real.abs_sin_le_one y))
    (List.replicate 14 (7, 7)) 180 13 true rfl (by norm_num)
  obtain ⟨c, s, h4, h5, -⟩ := h3 13 le_rfl
  refine ⟨rnd, _, _, R, l, c, s, h1, h4, ?_⟩
  have e : Real.cos (((13 : Nat) : ℝ) * (180 * (Real.pi / 180))) = -1 := by
    rw [show ((13 : Nat) : ℝ) * (180 * (Real.pi / 180)) = Real.pi + (6 : Nat) * (2 * Real.pi) by
      push_cast; ring, Real.cos_add_nat_mul_two_pi, Real.cos_pi]
  rw [e] at h5
  refine h5.trans ?_
  rw [show (180 : ℝ) * (Real.pi / 180) = Real.pi by ring, abs_of_pos Real.pi_pos,
    show (2 : ℝ) ^ (-44 : ℤ) = 512 * 2 ^ (-53 : ℤ) by norm_num]
  refine mul_le_mul_of_nonneg_right ?_ (by positivity)
  push_cast
  linarith [Real.pi_lt_four]

end Verif.Props
