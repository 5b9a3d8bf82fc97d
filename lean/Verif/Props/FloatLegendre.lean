/-
C91: the accuracy of the Legendre functions in double precision.
-/
import Verif.Model.FloatLegendre
import Verif.Props.FloatSeries
import Verif.Props.FloatSums
import Verif.Lemmas.FloatLegendre
import Verif.Lemmas.LegendreSpec
import Verif.Spec.Harmonic

namespace Verif.Props

open Verif.Buf Verif.Spec Verif.Legendre Verif.FloatSeries Verif.FloatLegendre Verif.FloatSums

/-- C91: without rounding the function is the exact one. -/
theorem C91_exact {K : Type} [Field K] (sin sqrt : K → K) (small : K → Bool) (scale pi : K) (o : Out K) (lat : K)
    (degree : Nat) (h : degree ≤ 16) :
    some (legendreLowF id sin sqrt pi o lat degree) =
      legendrePy sin sqrt small scale (pi / 180) o lat degree := by
  unfold legendrePy legendre
  rw [if_neg (by omega), Int.toNat_natCast]
  simp only []
  rw [if_pos (Or.inl h)]
  rfl

/-- The library: the sine is within `2^-53` of the exact one and not above one, the square root is
correctly rounded. -/
structure Accurate (rnd sin sqrt : ℝ → ℝ) : Prop where
  sin_err : ∀ x, |sin x - Real.sin x| ≤ 2 ^ (-53 : ℤ)
  sin_one : ∀ x, |sin x| ≤ 1
  sqrt_eq : ∀ x, sqrt x = rnd (Real.sqrt x)

/-- C91: the cosine of the latitude computed from its sine.  Its absolute error is below `2^-24`
everywhere, and below `11/cos 2^-53`: it is accurate away from the poles only. -/
theorem C91_cosine {rnd sin sqrt : ℝ → ℝ} (R : Nearest rnd) (L : Accurate rnd sin sqrt) (elv : ℝ) :
    abs (cosElvF rnd sqrt (sin elv) - |Real.cos elv|) ≤ 2 ^ (-24 : ℤ) ∧
    abs (cosElvF rnd sqrt (sin elv) - |Real.cos elv|) * |Real.cos elv| ≤ 11 * 2 ^ (-53 : ℤ) ∧
    0 ≤ cosElvF rnd sqrt (sin elv) ∧ cosElvF rnd sqrt (sin elv) ≤ 2 := by
  have hs := L.sin_err elv
  obtain ⟨hl, hr⟩ := abs_le.mp (L.sin_one elv)
  have hone : Real.sin elv ^ 2 + |Real.cos elv| ^ 2 = 1 := by rw [sq_abs]; exact Real.sin_sq_add_cos_sq elv
  have hS := abs_le.mp (Real.abs_sin_le_one elv)
  have hC := Real.abs_cos_le_one elv
  have h0 := abs_nonneg (Real.cos elv)
  unfold cosElvF
  rw [L.sqrt_eq]
  set s := sin elv
  set S := Real.sin elv
  set C := |Real.cos elv|
  have two : ∀ x : ℝ, |x| ≤ 2 → |rnd x - x| ≤ 2 ^ (-53 : ℤ) := by
    intro x hx
    have := R.err (k := 1) (x := x) (by norm_num) (by simpa using hx)
    exact this
  obtain ⟨z, hz⟩ : ∃ z : ℝ, z = 2 ^ (-24 : ℤ) := ⟨_, rfl⟩
  have hz0 : 0 < z := by rw [hz]; positivity
  have hz1 : z ≤ 1 := by rw [hz]; norm_num
  obtain ⟨u, hu⟩ : ∃ u : ℝ, u = 2 ^ (-53 : ℤ) := ⟨_, rfl⟩
  have hu0 : 0 < u := by rw [hu]; positivity
  have hu1 : u ≤ 1 / 1000000 := by rw [hu]; norm_num
  have huz : 10 * u < 15 / 16 * z * (15 / 16 * z) := by rw [hu, hz]; norm_num
  have huz' : u ≤ 1 / 16 * z := by rw [hu, hz]; norm_num
  rw [← hu] at hs two ⊢
  rw [← hz]
  clear_value s S C
  clear hu hz
  set a := rnd (1 - s) with ha
  set b := rnd (1 + s) with hb
  have ea : |a - (1 - s)| ≤ u := two _ (by rw [abs_le]; constructor <;> linarith)
  have eb : |b - (1 + s)| ≤ u := two _ (by rw [abs_le]; constructor <;> linarith)
  have ha0 : 0 ≤ a := R.ge_of_ge F64.zero (by linarith)
  have hb0 : 0 ≤ b := R.ge_of_ge F64.zero (by linarith)
  have ea' : |a - (1 - S)| ≤ 2 * u := by
    rw [abs_le] at *
    constructor <;> linarith [ea.1, ea.2, hs.1, hs.2]
  have eb' : |b - (1 + S)| ≤ 2 * u := by
    rw [abs_le] at *
    constructor <;> linarith [eb.1, eb.2, hs.1, hs.2]
  have hC2 : C * C = (1 - S) * (1 + S) := by nlinarith
  have eab : |a * b - C * C| ≤ 9 * u := by
    rw [hC2, show a * b - (1 - S) * (1 + S) = (a - (1 - S)) * b + (1 - S) * (b - (1 + S)) by ring]
    refine (abs_add_le _ _).trans ?_
    rw [abs_mul, abs_mul, abs_of_nonneg hb0, abs_of_nonneg (by linarith : 0 ≤ 1 - S)]
    have hb2 : b ≤ 2 + 2 * u := by linarith [(abs_le.mp eb').2]
    have := mul_le_mul ea' hb2 hb0 (by linarith)
    have := mul_le_mul (show 1 - S ≤ 2 by linarith) eb' (abs_nonneg _) (by norm_num)
    nlinarith
  have hab0 : 0 ≤ a * b := mul_nonneg ha0 hb0
  have hCC : C * C ≤ 1 := by nlinarith
  have hab2 : |a * b| ≤ 2 := by
    rw [abs_of_nonneg hab0]
    linarith [(abs_le.mp eab).2]
  have et := two _ hab2
  set t := rnd (a * b) with ht
  have ht0 : 0 ≤ t := R.ge_of_ge F64.zero hab0
  have etC : |t - C * C| ≤ 10 * u := by
    have := abs_add_le (t - a * b) (a * b - C * C)
    rw [sub_add_sub_cancel] at this
    linarith
  have hq0 := Real.sqrt_nonneg t
  have hqq := Real.mul_self_sqrt ht0
  set q := Real.sqrt t
  have hprod : |q - C| * (q + C) ≤ 10 * u := by
    rw [← abs_of_nonneg (add_nonneg hq0 h0), ← abs_mul, show (q - C) * (q + C) = q * q - C * C by ring, hqq]
    exact etC
  have habs := abs_nonneg (q - C)
  have hle : |q - C| ≤ q + C := by
    rw [abs_le]; constructor <;> linarith
  have hsq : |q - C| * |q - C| ≤ 10 * u := (mul_le_mul_of_nonneg_left hle habs).trans hprod
  have h24 : |q - C| ≤ 15 / 16 * z := by
    by_contra hc
    push Not at hc
    have := mul_le_mul hc.le hc.le (by positivity) habs
    linarith
  have hq2 : q ≤ 2 := by linarith [(abs_le.mp h24).2]
  have er := two q (by rw [abs_of_nonneg hq0]; exact hq2)
  have hsum := abs_add_le (rnd q - q) (q - C)
  rw [sub_add_sub_cancel] at hsum
  refine ⟨by linarith, ?_, R.ge_of_ge F64.zero hq0, R.le_of_le (b := 2) ?_ hq2⟩
  · have h5 := mul_le_mul_of_nonneg_right hsum h0
    have h6 := mul_nonneg habs hq0
    have h7 := mul_le_mul_of_nonneg_right er h0
    have h8 := mul_le_mul_of_nonneg_left hC hu0.le
    nlinarith
  · have := F64.int (n := 2) (by norm_num)
    exact_mod_cast this

/-- Values of the degree one: the functions and their derivatives in the latitude. -/
theorem low_one (rnd sin sqrt : ℝ → ℝ) (o : Out ℝ) (lat : ℝ) (h1 : o.lp.length = 3) (h2 : o.ldp.length = 3) :
    ∃ s, s = sin (rnd (lat * dg2radF rnd Real.pi)) ∧
      legendreLowF rnd sin sqrt Real.pi o lat 1 =
        some ⟨[1, s, cosElvF rnd sqrt s], [0, cosElvF rnd sqrt s, -s]⟩ := by
  refine ⟨_, rfl, ?_⟩
  obtain ⟨lp, ldp⟩ := o
  obtain ⟨a, b, c, rfl⟩ := List.length_eq_three.mp h1
  obtain ⟨d, e, f, rfl⟩ := List.length_eq_three.mp h2
  simp [legendreLowF, lowF, wrI, wr, forTo, forUp]

/-- C91: the functions of the degree one for a latitude in degrees: the sines are accurate to a few
units of the last place of one, the cosines to `2^-23` only.  Missing: accurate cosines next to the
poles, see `C91_pole_loss`, and the degrees above one (`C91_low_partial`). -/
theorem C91_degree_one_partial {rnd sin sqrt : ℝ → ℝ} (R : Nearest rnd) (L : Accurate rnd sin sqrt) (o : Out ℝ) (lat : ℝ)
    (h1 : o.lp.length = 3) (h2 : o.ldp.length = 3) (hlat : |lat| ≤ 90) :
    ∃ s c, legendreLowF rnd sin sqrt Real.pi o lat 1 = some ⟨[1, s, c], [0, c, -s]⟩ ∧
      |s - Real.sin (lat * (Real.pi / 180))| ≤ 2 ^ (-50 : ℤ) ∧
      |c - Real.cos (lat * (Real.pi / 180))| ≤ 2 ^ (-23 : ℤ) ∧
      |c - Real.cos (lat * (Real.pi / 180))| * Real.cos (lat * (Real.pi / 180)) ≤ 2 ^ (-48 : ℤ) := by
  obtain ⟨s, hs, he⟩ := low_one rnd sin sqrt o lat h1 h2
  refine ⟨s, _, he, ?_⟩
  have ha := angle_err R lat
  set y := rnd (lat * dg2radF rnd Real.pi) with hy
  set x := lat * (Real.pi / 180) with hx
  have hX : |x| ≤ 8 / 5 := by
    rw [hx, abs_mul, abs_of_pos (by positivity : (0 : ℝ) < Real.pi / 180)]
    have h3 := Real.pi_lt_d2
    have h4 := mul_le_mul_of_nonneg_right hlat (by positivity : (0 : ℝ) ≤ Real.pi / 180)
    linarith
  have hc0 : 0 ≤ Real.cos x := by
    have h3 : |x| ≤ Real.pi / 2 := by
      rw [hx, abs_mul, abs_of_pos (by positivity : (0 : ℝ) < Real.pi / 180)]
      have h4 := mul_le_mul_of_nonneg_right hlat (by positivity : (0 : ℝ) ≤ Real.pi / 180)
      linarith
    exact Real.cos_nonneg_of_mem_Icc (abs_le.mp h3)
  have hC1 := Real.cos_le_one x
  obtain ⟨k1, k2, k3, k4⟩ := C91_cosine R L y
  have hs1 := L.sin_err y
  have d1 := Real.abs_sin_sub_sin_le y x
  have d2 := (abs_abs_sub_abs_le (Real.cos y) (Real.cos x)).trans (Real.abs_cos_sub_cos_le y x)
  rw [abs_of_nonneg hc0] at d2
  have ht : (2 : ℝ) ^ (-1075 : ℤ) ≤ 2 ^ (-53 : ℤ) / 8 := by
    rw [show (2 : ℝ) ^ (-53 : ℤ) / 8 = 2 ^ (-56 : ℤ) by norm_num]
    exact zpow_le_zpow_right₀ (by norm_num) (by norm_num)
  rw [← hs] at k1 k2 hs1
  have e50 : (2 : ℝ) ^ (-50 : ℤ) = 8 * 2 ^ (-53 : ℤ) := by norm_num
  have e48 : (2 : ℝ) ^ (-48 : ℤ) = 32 * 2 ^ (-53 : ℤ) := by norm_num
  have e23 : (2 : ℝ) ^ (-23 : ℤ) = 2 * 2 ^ (-24 : ℤ) := by norm_num
  have e24 : 7 * (2 : ℝ) ^ (-53 : ℤ) ≤ 2 ^ (-24 : ℤ) := by norm_num
  have e24' : (2 : ℝ) ^ (-24 : ℤ) ≤ 1 := by norm_num
  have hu : (0 : ℝ) < 2 ^ (-53 : ℤ) := by positivity
  rw [e50, e48, e23]
  generalize (2 : ℝ) ^ (-53 : ℤ) = u at *
  generalize (2 : ℝ) ^ (-24 : ℤ) = z at *
  generalize cosElvF rnd sqrt s = c at *
  have hyx : |y - x| ≤ 7 * u := by nlinarith
  have f1 := abs_add_le (s - Real.sin y) (Real.sin y - Real.sin x)
  have f2 := abs_add_le (c - |Real.cos y|) (|Real.cos y| - Real.cos x)
  rw [sub_add_sub_cancel] at f1 f2
  refine ⟨by linarith, by linarith, ?_⟩
  have g1 := mul_le_mul_of_nonneg_right f2 hc0
  have g2 : Real.cos x ≤ |Real.cos y| + 7 * u := by linarith [(abs_le.mp d2).1]
  have g3 := mul_le_mul_of_nonneg_left g2 (abs_nonneg (c - |Real.cos y|))
  have g4 := mul_le_mul_of_nonneg_right (d2.trans hyx) hc0
  have g5 := mul_le_mul_of_nonneg_left hC1 (by linarith : 0 ≤ 7 * u)
  have g6 := mul_le_mul_of_nonneg_right (k1.trans e24') (by linarith : 0 ≤ 7 * u)
  nlinarith

/-- C91: next to the poles the cosines are lost.  At the latitude of `90 - 2^-21` degrees (5 cm from
the pole on the surface of the Earth), with correctly rounded sine and square root, the function
of degree and order one is zero, while the cosine of the latitude is above `2^-27`. -/
theorem C91_pole_loss {rnd : ℝ → ℝ} (R : Nearest rnd) (o : Out ℝ) (h1 : o.lp.length = 3) (h2 : o.ldp.length = 3) :
    (90 - 2 ^ (-21 : ℤ) : ℝ) ∈ F64 ∧
    Accurate rnd (fun x => rnd (Real.sin x)) (fun x => rnd (Real.sqrt x)) ∧
    legendreLowF rnd (fun x => rnd (Real.sin x)) (fun x => rnd (Real.sqrt x)) Real.pi o (90 - 2 ^ (-21 : ℤ)) 1 =
      some ⟨[1, 1, 0], [0, 0, -1]⟩ ∧
    2 ^ (-27 : ℤ) < Real.cos ((90 - 2 ^ (-21 : ℤ)) * (Real.pi / 180)) := by
  have hone : ∀ y : ℝ, |y| ≤ 1 → |rnd y - y| ≤ 2 ^ (-53 : ℤ) := by
    intro y hy
    refine (R.err (k := 0) (by norm_num) (by simpa using hy)).trans ?_
    exact zpow_le_zpow_right₀ (by norm_num) (by norm_num)
  have hpi1 := Real.pi_gt_d20
  have hpi2 := Real.pi_lt_d20
  have L : Accurate rnd (fun x => rnd (Real.sin x)) (fun x => rnd (Real.sqrt x)) := by
    refine ⟨fun x => hone _ (Real.abs_sin_le_one x), fun x => ?_, fun x => rfl⟩
    obtain ⟨a, b⟩ := abs_le.mp (Real.abs_sin_le_one x)
    exact abs_le.mpr ⟨R.ge_of_ge (F64.neg F64.one) a, R.le_of_le F64.one b⟩
  refine ⟨⟨90 * 2 ^ 21 - 1, -21, by norm_num, by norm_num, by push_cast; norm_num⟩, L, ?_, ?_⟩
  · obtain ⟨s, hs, he⟩ := low_one rnd (fun x => rnd (Real.sin x)) (fun x => rnd (Real.sqrt x)) o
      (90 - 2 ^ (-21 : ℤ)) h1 h2
    have hy := angle_err R (90 - 2 ^ (-21 : ℤ))
    set y := rnd ((90 - 2 ^ (-21 : ℤ)) * dg2radF rnd Real.pi)
    have ht : (2 : ℝ) ^ (-1075 : ℤ) ≤ 2 ^ (-56 : ℤ) := zpow_le_zpow_right₀ (by norm_num) (by norm_num)
    have hd : |Real.pi / 2 - y| ≤ 1 / 10 ^ 8 := by
      have h3 : (90 - (2 : ℝ) ^ (-21 : ℤ)) * (Real.pi / 180) = Real.pi / 2 - 2 ^ (-21 : ℤ) * (Real.pi / 180) := by
        ring
      rw [h3, abs_of_pos (by norm_num; linarith : 0 < Real.pi / 2 - 2 ^ (-21 : ℤ) * (Real.pi / 180))] at hy
      obtain ⟨a, b⟩ := abs_le.mp hy
      rw [abs_le]
      norm_num at a b ht ⊢
      constructor <;> linarith
    have hcos : 1 - (1 / 10 ^ 8) ^ 2 / 2 ≤ Real.sin y := by
      rw [← Real.cos_pi_div_two_sub]
      have := Real.one_sub_sq_div_two_le_cos (x := Real.pi / 2 - y)
      have h4 : (Real.pi / 2 - y) ^ 2 ≤ (1 / 10 ^ 8) ^ 2 := by
        rw [← sq_abs]
        exact pow_le_pow_left₀ (abs_nonneg _) hd 2
      linarith
    have hle := Real.sin_le_one y
    have hs1 : s = 1 := by
      rw [hs]
      have h5 : |rnd (Real.sin y) - Real.sin y| ≤ |1 - Real.sin y| := R.near _ _ F64.one
      have h6 : rnd (Real.sin y) ≤ 1 := R.le_of_le F64.one hle
      rw [abs_of_nonneg (by linarith : 0 ≤ 1 - Real.sin y)] at h5
      have h7 := (abs_le.mp h5).1
      norm_num at hcos
      refine F64.eq_of_close (k := -1) (R.mem _) F64.one ?_ ?_ ?_
      · rw [abs_of_pos (by linarith)]
        norm_num
        linarith
      · norm_num
      · rw [abs_of_nonpos (by linarith)]
        norm_num
        linarith
    rw [he, hs1]
    have hc : cosElvF rnd (fun x => rnd (Real.sqrt x)) (1 : ℝ) = 0 := by
      simp [cosElvF, R.zero]
    rw [hc]
  · have h3 : (90 - (2 : ℝ) ^ (-21 : ℤ)) * (Real.pi / 180) = Real.pi / 2 - 2 ^ (-21 : ℤ) * (Real.pi / 180) := by
      ring
    rw [h3, Real.cos_pi_div_two_sub]
    have h4 := Real.sin_gt_sub_cube (x := (2 : ℝ) ^ (-21 : ℤ) * (Real.pi / 180)) (by positivity)
    refine lt_trans ?_ h4
    have h5 : (2 : ℝ) ^ (-21 : ℤ) * (Real.pi / 180) ≤ 1 / 10 ^ 4 := by norm_num; linarith
    have h6 : 82 / 10 ^ 10 ≤ (2 : ℝ) ^ (-21 : ℤ) * (Real.pi / 180) := by norm_num; linarith
    generalize (2 : ℝ) ^ (-21 : ℤ) * (Real.pi / 180) = d at *
    have h7 : d ^ 3 ≤ (1 / 10 ^ 4) ^ 2 * d := by
      have := mul_le_mul_of_nonneg_right (pow_le_pow_left₀ (by linarith) h5 2) (by linarith : 0 ≤ d)
      rwa [← pow_succ] at this
    norm_num at *
    linarith

/-- C91: the functions and their derivatives for the degrees up to 16 and a latitude in degrees.
With `k = 2^30` the bounds hold at every latitude; away from the poles they hold with any `k` not
below `32 / cos lat`.  The factors `(8/3)^i` bound the terms of the recurrence.  Missing: the
degrees above 16 (another algorithm), and accurate values next to the poles, see `C91_pole_loss`. -/
theorem C91_low_partial {rnd sin sqrt : ℝ → ℝ} (R : Nearest rnd) (L : Accurate rnd sin sqrt) (o : Out ℝ) (lat : ℝ)
    {N k : Nat} (h1 : 1 ≤ N) (hN : N ≤ 16) (hl : o.lp.length = (N + 1) * (N + 2) / 2)
    (hl' : o.ldp.length = (N + 1) * (N + 2) / 2) (hlat : |lat| ≤ 90)
    (hk : 2 ^ 30 ≤ k ∨ 32 ≤ k * Real.cos (lat * (Real.pi / 180))) :
    ∃ o', legendreLowF rnd sin sqrt Real.pi o lat N = some o' ∧ ∀ i ≤ N, ∀ j ≤ i, ∃ p d d',
      o'.lp[i * (i + 1) / 2 + j]? = some p ∧ o'.ldp[i * (i + 1) / 2 + j]? = some d ∧
      Rounded (i * (k + 11) + 1) ((8 / 3) ^ i) (schmidtP i j (lat * (Real.pi / 180))) p ∧
      HasDerivAt (schmidtP i j) d' (lat * (Real.pi / 180)) ∧
      Rounded (i * (k + 11) + 1) ((i + 1) * (8 / 3) ^ i) d' d := by
  obtain ⟨s, hs, he⟩ := low_one rnd sin sqrt ⟨[0, 0, 0], [0, 0, 0]⟩ lat rfl rfl
  obtain ⟨s', c', he', b1, b2, b3⟩ := C91_degree_one_partial R L ⟨[0, 0, 0], [0, 0, 0]⟩ lat rfl rfl hlat
  rw [he] at he'
  simp only [Option.some.injEq, Out.mk.injEq, List.cons.injEq, and_true, true_and] at he'
  obtain ⟨⟨rfl, hc⟩, -⟩ := he'
  have hc0 : 0 ≤ Real.cos (lat * (Real.pi / 180)) := by
    have h3 : |lat * (Real.pi / 180)| ≤ Real.pi / 2 := by
      rw [abs_mul, abs_of_pos (by positivity : (0 : ℝ) < Real.pi / 180)]
      have h4 := mul_le_mul_of_nonneg_right hlat (by positivity : (0 : ℝ) ≤ Real.pi / 180)
      linarith
    exact Real.cos_nonneg_of_mem_Icc (abs_le.mp h3)
  have hC1 := Real.cos_le_one (lat * (Real.pi / 180))
  have hk0 : (0 : ℝ) ≤ k := Nat.cast_nonneg k
  have hk32 : (32 : ℝ) ≤ k := by
    rcases hk with hk | hk
    · have : 32 ≤ k := le_trans (by norm_num) hk
      exact_mod_cast this
    · nlinarith
  have u0 : (0 : ℝ) < 2 ^ (-53 : ℤ) := by positivity
  have rs : Rounded k 1 (Real.sin (lat * (Real.pi / 180))) s := by
    refine Rounded.of_abs (Real.abs_sin_le_one _) (b1.trans ?_)
    rw [show (2 : ℝ) ^ (-50 : ℤ) = 8 * 2 ^ (-53 : ℤ) by norm_num, mul_one]
    exact mul_le_mul_of_nonneg_right (by linarith) u0.le
  have rc : Rounded k 1 (Real.cos (lat * (Real.pi / 180))) c' := by
    refine Rounded.of_abs (Real.abs_cos_le_one _) ?_
    rw [mul_one]
    rcases hk with hk | hk
    · refine b2.trans ?_
      rw [show (2 : ℝ) ^ (-23 : ℤ) = (2 ^ 30 : ℕ) * 2 ^ (-53 : ℤ) by norm_num]
      exact mul_le_mul_of_nonneg_right (by exact_mod_cast hk) u0.le
    · have hcp : 0 < Real.cos (lat * (Real.pi / 180)) := by
        rcases hc0.lt_or_eq with h | h
        · exact h
        · rw [← h] at hk; norm_num at hk
      refine le_of_mul_le_mul_right (b3.trans ?_) hcp
      rw [show (2 : ℝ) ^ (-48 : ℤ) = 32 * 2 ^ (-53 : ℤ) by norm_num]
      nlinarith
  have ht : ∀ n, n * (n + 1) / 2 = tri n := tri_half
  obtain ⟨o', e, hT⟩ := lowF_spec R L.sqrt_eq rs rc o h1 hN (by rw [hl, ← ht]) (by rw [hl', ← ht])
  refine ⟨o', ?_, ?_⟩
  · unfold legendreLowF
    simp only []
    rw [← hs, hc]
    exact e
  · intro i hi j hj
    obtain ⟨p, q, e1, e2, n1, n2⟩ := hT.2.2 i j hj hi
    refine ⟨p, q, _, by rw [ht]; exact e1, by rw [ht]; exact e2, ?_, hasDerivAt_schmidtP i j _, n2⟩
    rw [schmidtP_eq]
    exact n1

/-- C91: the bounds as numbers. -/
theorem C91_error_partial {rnd sin sqrt : ℝ → ℝ} (R : Nearest rnd) (L : Accurate rnd sin sqrt) (o : Out ℝ) (lat : ℝ)
    {N k : Nat} (h1 : 1 ≤ N) (hN : N ≤ 16) (hl : o.lp.length = (N + 1) * (N + 2) / 2)
    (hl' : o.ldp.length = (N + 1) * (N + 2) / 2) (hlat : |lat| ≤ 90)
    (hk : 2 ^ 30 ≤ k ∨ 32 ≤ k * Real.cos (lat * (Real.pi / 180))) (hk' : k ≤ 2 ^ 35) :
    ∃ o', legendreLowF rnd sin sqrt Real.pi o lat N = some o' ∧ ∀ i ≤ N, ∀ j ≤ i, ∃ p d d',
      o'.lp[i * (i + 1) / 2 + j]? = some p ∧ o'.ldp[i * (i + 1) / 2 + j]? = some d ∧
      |p - schmidtP i j (lat * (Real.pi / 180))| ≤ ((i * (k + 11) + 1 : Nat) : ℝ) * 2 ^ (-52 : ℤ) * (8 / 3) ^ i ∧
      HasDerivAt (schmidtP i j) d' (lat * (Real.pi / 180)) ∧
      |d - d'| ≤ ((i * (k + 11) + 1 : Nat) : ℝ) * 2 ^ (-52 : ℤ) * ((i + 1) * (8 / 3) ^ i) := by
  obtain ⟨o', e, h⟩ := C91_low_partial R L o lat h1 hN hl hl' hlat hk
  refine ⟨o', e, fun i hi j hj => ?_⟩
  obtain ⟨p, d, d', e1, e2, r1, r2, r3⟩ := h i hi j hj
  have hn : i * (k + 11) + 1 ≤ 2 ^ 40 := by
    have : i * (k + 11) ≤ 16 * (2 ^ 35 + 11) := Nat.mul_le_mul (by omega) (by omega)
    omega
  exact ⟨p, d, d', e1, e2, r1.le hn, r2, r3.le hn⟩

/-- The two forms of the sum: with the radius and with the reference radius. -/
theorem potential_spec (isInternal : Bool) (a r x φ : ℝ) (ha : 0 < a) (hr : 0 < r) {N : Nat} {g h : Nat → Nat → ℝ} :
    potential N r g h (fun i j => schmidtP i j φ) (radialExact isInternal a r) x =
      Verif.Spec.potential isInternal a N g h r φ x := by
  unfold potential Verif.Spec.potential radialExact
  rw [Finset.mul_sum, Finset.mul_sum]
  refine Finset.sum_congr rfl (fun i _ => ?_)
  rw [← mul_assoc, ← mul_assoc]
  congr 1
  cases isInternal
  · simp only [Bool.false_eq_true, if_false]
    rw [zpow_sub_one₀ (by positivity), zpow_natCast]
    field_simp
  · simp only [if_true]
    rw [show (i : ℤ) + 2 = ((i + 1 : ℕ) : ℤ) + 1 by push_cast; ring, zpow_add_one₀ (by positivity), zpow_natCast]
    field_simp

/-- C91: the potential by `spharpot` from the tables of `legendre`, `loncossin` and `relradpow`, for
the degrees up to 16: the error relative to the potential of the model is bounded by the number
of the roundings times `2^-52` times the sum of the bounds of the terms. -/
theorem C91_potential_partial {rnd cos sin sqrt : ℝ → ℝ} (R : Nearest rnd) (L : Accurate rnd sin sqrt)
    (hcos : ∀ x, |cos x - Real.cos x| ≤ 2 ^ (-53 : ℤ)) (o : Out ℝ) (b1 : List (ℝ × ℝ)) (b2 : List ℝ)
    (lat lon r a : ℝ) {N k nL : Nat} (fast isInternal : Bool) (h1 : 1 ≤ N) (hN : N ≤ 16)
    (hl : o.lp.length = (N + 1) * (N + 2) / 2) (hl' : o.ldp.length = (N + 1) * (N + 2) / 2)
    (hb1 : b1.length = N + 1) (hb2 : b2.length = N + 1) (hlat : |lat| ≤ 90)
    (hk : 2 ^ 30 ≤ k ∨ 32 ≤ k * Real.cos (lat * (Real.pi / 180))) (hk' : k ≤ 2 ^ 35) (ha : 0 < a)
    (hr : 2 ^ (-100 : ℤ) ≤ r) (hnL : N * (10 + 6 * |lon * (Real.pi / 180)|) + 1 ≤ nL) (hnL' : nL ≤ 2 ^ 38)
    (hR : ∀ k ≤ N, 2 ^ (-300 : ℤ) ≤ radialExact isInternal a r k)
    (hra : 2 ^ (-1020 : ℤ) ≤ r / a) (har : 2 ^ (-1020 : ℤ) ≤ a / r)
    {coef : List (ℝ × ℝ)} {g h G : Nat → Nat → ℝ} (hc : HoldsCoef N coef g h G) :
    ∃ t lcs rrp v, legendreLowF rnd sin sqrt Real.pi o lat N = some t ∧
      loncossinF rnd cos sin Real.pi b1 lon N fast = some (some lcs) ∧
      relradpowF rnd b2 r N a isInternal = some (some rrp) ∧ evalVF rnd N r coef lcs t.lp rrp = some v ∧
      |v - Verif.Spec.potential isInternal a N g h r (lat * (Real.pi / 180)) (lon * (Real.pi / 180))| ≤
        ((nL + (N * (k + 11) + 1) + 6 * N + 11 : Nat) : ℝ) * 2 ^ (-52 : ℤ) *
          potentialSize N r G (fun i _ => (8 / 3) ^ i) (radialExact isInternal a r) := by
  obtain ⟨t, e, ht⟩ := C91_low_partial R L o lat h1 hN hl hl' hlat hk
  have hp : HoldsTri N (N * (k + 11) + 1) t.lp (fun i j => schmidtP i j (lat * (Real.pi / 180)))
      (fun i _ => (8 / 3) ^ i) := by
    intro i hi j hj
    obtain ⟨p, d, d', e1, -, r1, -⟩ := ht i hi j hj
    refine ⟨p, e1, r1.mono ?_ le_rfl, ?_⟩
    · have := Nat.mul_le_mul_right (k + 11) hi
      omega
    · exact (zpow_le_one_of_nonpos₀ (by norm_num) (by norm_num)).trans (one_le_pow₀ (by norm_num))
  have h00 : schmidtP 0 0 (lat * (Real.pi / 180)) = 1 := by
    rw [schmidtP_eq, Sf, rho_zero_zero, Gf_self]
    norm_num
  have hn : nL + (N * (k + 11) + 1) + 6 * N + 11 ≤ 2 ^ 40 := by
    have : N * (k + 11) ≤ 16 * (2 ^ 35 + 11) := Nat.mul_le_mul hN (by omega)
    omega
  obtain ⟨lcs, rrp, v, e2, e3, e4, e5⟩ := C85_computed R hcos L.sin_err b1 b2 lon r a fast isInternal hb1 hb2
    (by omega) ha hr hnL hR hra har hc hp h00 hn
  rw [potential_spec isInternal a r _ _ ha (lt_of_lt_of_le (by positivity) hr)] at e5
  exact ⟨t, lcs, rrp, v, e, e2, e3, e4, e5⟩

/-- A rounding, library and latitude which meet the hypotheses. -/
example : ∃ (rnd sin sqrt : ℝ → ℝ), Nearest rnd ∧ Accurate rnd sin sqrt ∧
    ∃ s c, legendreLowF rnd sin sqrt Real.pi ⟨[7, 7, 7], [7, 7, 7]⟩ 45 1 = some ⟨[1, s, c], [0, c, -s]⟩ ∧
      1 / 2 < s ∧ 1 / 2 < c := by
  obtain ⟨rnd, R⟩ := Nearest.exists
  have L := (C91_pole_loss R ⟨[7, 7, 7], [7, 7, 7]⟩ rfl rfl).2.1
  obtain ⟨s, c, e, h1, h2, -⟩ := C91_degree_one_partial R L ⟨[7, 7, 7], [7, 7, 7]⟩ 45 rfl rfl (by norm_num)
  refine ⟨rnd, _, _, R, L, s, c, e, ?_⟩
  rw [show (45 : ℝ) * (Real.pi / 180) = Real.pi / 4 by ring, abs_le] at h1 h2
  rw [Real.sin_pi_div_four] at h1
  rw [Real.cos_pi_div_four] at h2
  have h3 : (14 : ℝ) / 10 ≤ Real.sqrt 2 := Real.le_sqrt_of_sq_le (by norm_num)
  norm_num at h1 h2
  constructor <;> linarith [h1.1, h2.1]

/-- At the latitude 45 the error of the degree 16 is below `10^-5`. -/
example : ∃ (rnd sin sqrt : ℝ → ℝ), Nearest rnd ∧ Accurate rnd sin sqrt ∧
    ∃ o', legendreLowF rnd sin sqrt Real.pi ⟨List.replicate 153 7, List.replicate 153 7⟩ 45 16 = some o' ∧
      ∃ p, o'.lp[136]? = some p ∧ |p - schmidtP 16 0 (Real.pi / 4)| ≤ 1 / 10 ^ 5 := by
  obtain ⟨rnd, R⟩ := Nearest.exists
  have L := (C91_pole_loss R ⟨[7, 7, 7], [7, 7, 7]⟩ rfl rfl).2.1
  have e : (45 : ℝ) * (Real.pi / 180) = Real.pi / 4 := by ring
  have h3 : (14 : ℝ) / 10 ≤ Real.sqrt 2 := Real.le_sqrt_of_sq_le (by norm_num)
  obtain ⟨o', e1, h⟩ := C91_error_partial R L ⟨List.replicate 153 7, List.replicate 153 7⟩ 45 (N := 16) (k := 46)
    (by norm_num) (by norm_num) (by simp) (by simp) (by norm_num)
    (Or.inr (by rw [e, Real.cos_pi_div_four]; push_cast; linarith)) (by norm_num)
  obtain ⟨p, d, d', a, -, b, -⟩ := h 16 le_rfl 0 (by norm_num)
  refine ⟨rnd, _, _, R, L, o', e1, p, a, ?_⟩
  rw [e] at b
  refine b.trans ?_
  norm_num

/-- The potential of a dipole at the latitude 45 and the longitude 90, all tables computed. -/
example : ∃ (rnd cos sin sqrt : ℝ → ℝ), Nearest rnd ∧ Accurate rnd sin sqrt ∧ ∃ t lcs rrp v,
    legendreLowF rnd sin sqrt Real.pi ⟨[7, 7, 7], [7, 7, 7]⟩ 45 1 = some t ∧
    loncossinF rnd cos sin Real.pi [(7, 7), (7, 7)] 90 1 true = some (some lcs) ∧
    relradpowF rnd [7, 7] 2 1 1 true = some (some rrp) ∧
    evalVF rnd 1 2 [(0, 0), (-30000, 0), (-1500, 5000)] lcs t.lp rrp = some v ∧
    abs (v - Verif.Spec.potential true 1 1 (fun i j => if i = 0 then 0 else if j = 0 then -30000 else -1500)
      (fun i j => if i = 1 ∧ j = 1 then 5000 else 0) 2 (45 * (Real.pi / 180)) (90 * (Real.pi / 180))) ≤
      1 / 1000000 := by
  obtain ⟨rnd, R⟩ := Nearest.exists
  have L := (C91_pole_loss R ⟨[7, 7, 7], [7, 7, 7]⟩ rfl rfl).2.1
  have hone : ∀ y : ℝ, |y| ≤ 1 → |rnd y - y| ≤ 2 ^ (-53 : ℤ) := by
    intro y hy
    refine (R.err (k := 0) (by norm_num) (by simpa using hy)).trans ?_
    exact zpow_le_zpow_right₀ (by norm_num) (by norm_num)
  have hs : ∀ {y : ℝ} {k : ℤ}, k ≤ -10 → 2 ^ (-10 : ℤ) ≤ y → 2 ^ k ≤ y :=
    fun hk hy => (zpow_le_zpow_right₀ (by norm_num) hk).trans hy
  have hx : (90 : ℝ) * (Real.pi / 180) = Real.pi / 2 := by ring
  have e : (45 : ℝ) * (Real.pi / 180) = Real.pi / 4 := by ring
  have h3 : (14 : ℝ) / 10 ≤ Real.sqrt 2 := Real.le_sqrt_of_sq_le (by norm_num)
  obtain ⟨t, lcs, rrp, v, e0, e1, e2, e3, e4⟩ := C91_potential_partial (cos := fun y => rnd (Real.cos y)) R L
    (fun y => hone _ (Real.abs_cos_le_one y)) ⟨[7, 7, 7], [7, 7, 7]⟩ [(7, 7), (7, 7)] [7, 7] 45 90 2 1 (N := 1)
    (k := 46) (nL := 23) true true (by norm_num) (by norm_num) rfl rfl rfl rfl (by norm_num)
    (Or.inr (by rw [e, Real.cos_pi_div_four]; push_cast; linarith)) (by norm_num) (by norm_num)
    (hs (by norm_num) (by norm_num))
    (by
      rw [hx, abs_of_pos (by positivity)]
      push_cast
      linarith [Real.pi_lt_four])
    (by norm_num)
    (by
      intro k hk
      refine hs (by norm_num) ?_
      have : k = 0 ∨ k = 1 := by omega
      rcases this with rfl | rfl <;> norm_num [radialExact])
    (hs (by norm_num) (by norm_num)) (hs (by norm_num) (by norm_num))
    (coef := [(0, 0), (-30000, 0), (-1500, 5000)])
    (g := fun i j => if i = 0 then 0 else if j = 0 then -30000 else -1500)
    (h := fun i j => if i = 1 ∧ j = 1 then 5000 else 0) (G := fun _ _ => 30000)
    (by
      intro i hi j hj
      have hG : (2 : ℝ) ^ (-300 : ℤ) ≤ 30000 := hs (by norm_num) (by norm_num)
      have : (i = 0 ∧ j = 0) ∨ (i = 1 ∧ j = 0) ∨ (i = 1 ∧ j = 1) := by omega
      rcases this with ⟨rfl, rfl⟩ | ⟨rfl, rfl⟩ | ⟨rfl, rfl⟩ <;>
        refine ⟨by simp, by norm_num, by norm_num, hG⟩)
  refine ⟨rnd, _, _, _, R, L, t, lcs, rrp, v, e0, e1, e2, e3, e4.trans ?_⟩
  norm_num [potentialSize, Finset.sum_range_succ, radialExact]

end Verif.Props
