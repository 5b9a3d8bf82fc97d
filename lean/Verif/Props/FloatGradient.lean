/-
C91: the accuracy of the gradient computed from the tables of the Legendre functions.
-/
import Verif.Props.FloatLegendre
import Verif.Lemmas.Harmonic

namespace Verif.Props

open Verif.Buf Verif.Spec Verif.Legendre Verif.FloatSeries Verif.FloatLegendre Verif.FloatSums

/-- The radial functions of the potential and of the gradient. -/
theorem radial_rpow (isInternal : Bool) {a r : ℝ} (ha : 0 < a) (hr : 0 < r) (i : Nat) :
    Verif.ShPoint.rpow isInternal (r / a) i = radialExact isInternal a r i := by
  unfold Verif.ShPoint.rpow radialExact
  cases isInternal
  · simp only [Bool.false_eq_true, if_false]
    rcases i with _ | i
    · simp
    · rw [if_neg (by omega), show ((i + 1 : ℕ) : ℤ) - 1 = (i : ℤ) by push_cast; ring, zpow_natCast]
      rfl
  · simp only [if_true]
    rw [one_div_div, show (i : ℤ) + 2 = ((i + 2 : ℕ) : ℤ) by push_cast; ring, zpow_natCast]

/-- The cosine of the library at the rounded angle. -/
theorem cos_angle {rnd cos : ℝ → ℝ} (R : Nearest rnd) (hcos : ∀ x, |cos x - Real.cos x| ≤ 2 ^ (-53 : ℤ)) {lat : ℝ}
    (hlat : |lat| ≤ 90) :
    |cos (rnd (lat * dg2radF rnd Real.pi)) - Real.cos (lat * (Real.pi / 180))| ≤ 8 * 2 ^ (-53 : ℤ) := by
  have ha := angle_err R lat
  set y := rnd (lat * dg2radF rnd Real.pi) with hy
  set x := lat * (Real.pi / 180) with hx
  have hX : |x| ≤ 8 / 5 := by
    rw [hx, abs_mul, abs_of_pos (by positivity : (0 : ℝ) < Real.pi / 180)]
    have h3 := Real.pi_lt_d2
    have h4 := mul_le_mul_of_nonneg_right hlat (by positivity : (0 : ℝ) ≤ Real.pi / 180)
    linarith
  have ht : (2 : ℝ) ^ (-1075 : ℤ) ≤ 2 ^ (-53 : ℤ) / 8 := by
    rw [show (2 : ℝ) ^ (-53 : ℤ) / 8 = 2 ^ (-56 : ℤ) by norm_num]
    exact zpow_le_zpow_right₀ (by norm_num) (by norm_num)
  have hu : (0 : ℝ) < 2 ^ (-53 : ℤ) := by positivity
  have h1 := hcos y
  have d2 := Real.abs_cos_sub_cos_le y x
  generalize (2 : ℝ) ^ (-53 : ℤ) = u at *
  have hyx : |y - x| ≤ 7 * u := by nlinarith
  have f1 := abs_add_le (cos y - Real.cos y) (Real.cos y - Real.cos x)
  rw [sub_add_sub_cancel] at f1
  linarith

/-- A quotient by the cosine of the library, relative to the quotient by the exact one. -/
theorem quotient_err {n k : Nat} {S E c c' v : ℝ} (hk' : k ≤ 2 ^ 35) (hcc : |c' - c| ≤ 8 * 2 ^ (-53 : ℤ))
    (hz : 32 ≤ k * c) (h : 1e-10 ≤ |c'| → Rounded n (S / |c'|) (E / c') v) (hn : n ≤ 2 ^ 40) :
    |v - E / c| ≤ 2 * ((n + k : Nat) : ℝ) * 2 ^ (-52 : ℤ) * (S / c) := by
  have hk0 : (0 : ℝ) ≤ k := Nat.cast_nonneg k
  have hkr : (k : ℝ) ≤ 2 ^ 35 := by exact_mod_cast hk'
  have hc : 2 ^ (-30 : ℤ) ≤ c := by
    by_contra hlt
    push Not at hlt
    rcases le_or_gt c 0 with hc0 | hc0
    · nlinarith
    · have h1 := mul_lt_mul_of_pos_right hlt (show (0 : ℝ) < 2 ^ 35 by norm_num)
      have h2 := mul_le_mul_of_nonneg_right hkr hc0.le
      norm_num at h1 h2
      linarith
  have hc0 : 0 < c := lt_of_lt_of_le (by positivity) hc
  obtain ⟨l1, l2⟩ := abs_le.mp hcc
  have hhalf : c / 2 ≤ c' := by norm_num at hc l1 ⊢; linarith
  have hc'0 : 0 < c' := by linarith
  have h10 : 1e-10 ≤ |c'| := by
    rw [abs_of_pos hc'0]
    norm_num at hc ⊢
    linarith
  have hr := h h10
  have hle := hr.le hn
  have hE := hr.1
  rw [abs_of_pos hc'0] at hle hE
  rw [abs_div, abs_of_pos hc'0, div_le_div_iff_of_pos_right hc'0] at hE
  have hS : 0 ≤ S := (abs_nonneg E).trans hE
  have hq : S / c' ≤ 2 * (S / c) := by
    rw [div_le_iff₀ hc'0]
    have : 2 * (S / c) * (c / 2) = S := by field_simp
    have h0 : 0 ≤ 2 * (S / c) := by positivity
    nlinarith
  have h2 : |E / c' - E / c| ≤ k * 2 ^ (-52 : ℤ) * (S / c) := by
    have e : E / c' - E / c = E / c' * ((c - c') / c) := by field_simp
    rw [e, abs_mul, abs_div, abs_div, abs_of_pos hc'0, abs_of_pos hc0, abs_sub_comm]
    have g1 : |E| / c' ≤ 2 * (S / c) := ((div_le_div_iff_of_pos_right hc'0).mpr hE).trans hq
    have g2 : |c' - c| / c ≤ k / 2 * 2 ^ (-52 : ℤ) := by
      rw [div_le_iff₀ hc0]
      refine hcc.trans ?_
      rw [show (2 : ℝ) ^ (-52 : ℤ) = 2 * 2 ^ (-53 : ℤ) by norm_num]
      have : (0 : ℝ) < 2 ^ (-53 : ℤ) := by positivity
      nlinarith
    refine (mul_le_mul g1 g2 (by positivity) (by positivity)).trans (le_of_eq ?_)
    ring
  have h3 := abs_add_le (v - E / c') (E / c' - E / c)
  rw [sub_add_sub_cancel] at h3
  have hn0 : (0 : ℝ) ≤ n := Nat.cast_nonneg n
  have h4 := mul_le_mul_of_nonneg_left hq (by positivity : (0 : ℝ) ≤ n * 2 ^ (-52 : ℤ))
  have h5 : (0 : ℝ) ≤ k * 2 ^ (-52 : ℤ) * (S / c) := by positivity
  push_cast
  generalize (2 : ℝ) ^ (-52 : ℤ) = w at *
  generalize S / c = q at *
  nlinarith

/-- C91: the gradient by `sphargrd` from the tables of `legendre`, `loncossin` and `relradpow`, for the
degrees up to 16: the components are close to the derivatives of the potential of the model in
the latitude, the radius and the longitude.  The eastward component is claimed outside of the
neighbourhood of the poles, where the cosine of the latitude is at least `32 / k`. -/
theorem C91_gradient_partial {rnd cos sin sqrt : ℝ → ℝ} (R : Nearest rnd) (L : Accurate rnd sin sqrt)
    (hcos : ∀ x, |cos x - Real.cos x| ≤ 2 ^ (-53 : ℤ)) (o : Out ℝ) (b1 : List (ℝ × ℝ)) (b2 : List ℝ)
    (lat lon r a : ℝ) {N k nL : Nat} (fast isInternal : Bool) (h1 : 1 ≤ N) (hN : N ≤ 16)
    (hl : o.lp.length = (N + 1) * (N + 2) / 2) (hl' : o.ldp.length = (N + 1) * (N + 2) / 2)
    (hb1 : b1.length = N + 1) (hb2 : b2.length = N + 1) (hlat : |lat| ≤ 90)
    (hk : 2 ^ 30 ≤ k ∨ 32 ≤ k * Real.cos (lat * (Real.pi / 180))) (hk' : k ≤ 2 ^ 35) (ha : 0 < a)
    (hr : 0 < r) (hnL : N * (10 + 6 * |lon * (Real.pi / 180)|) + 1 ≤ nL) (hnL' : nL ≤ 2 ^ 38)
    (hR : ∀ k ≤ N, 2 ^ (-300 : ℤ) ≤ radialExact isInternal a r k)
    (hra : 2 ^ (-1020 : ℤ) ≤ r / a) (har : 2 ^ (-1020 : ℤ) ≤ a / r)
    {coef : List (ℝ × ℝ)} {g h G : Nat → Nat → ℝ} (hc : HoldsCoef N coef g h G) :
    ∃ t lcs rrp v north east up, legendreLowF rnd sin sqrt Real.pi o lat N = some t ∧
      loncossinF rnd cos sin Real.pi b1 lon N fast = some (some lcs) ∧
      relradpowF rnd b2 r N a isInternal = some (some rrp) ∧
      evalDvF rnd sin cos sqrt (fun y => decide (|y| < 1e-10)) N (rnd (lat * dg2radF rnd Real.pi)) coef lcs t.lp
        t.ldp rrp isInternal = some v ∧
      HasDerivAt (fun φ => Verif.Spec.potential isInternal a N g h r φ (lon * (Real.pi / 180))) (r * north)
        (lat * (Real.pi / 180)) ∧
      HasDerivAt (fun x => Verif.Spec.potential isInternal a N g h r (lat * (Real.pi / 180)) x) (r * east)
        (lon * (Real.pi / 180)) ∧
      HasDerivAt (fun x => Verif.Spec.potential isInternal a N g h x (lat * (Real.pi / 180))
        (lon * (Real.pi / 180))) up r ∧
      |v.el - north| ≤ ((nL + (N * (k + 11) + 1) + 6 * N + 12 : Nat) : ℝ) * 2 ^ (-52 : ℤ) *
        gradNorthSize N G (fun i _ => (i + 1) * (8 / 3) ^ i) (radialExact isInternal a r) ∧
      |v.rd - up| ≤ ((nL + (N * (k + 11) + 1) + 6 * N + 12 : Nat) : ℝ) * 2 ^ (-52 : ℤ) *
        gradUpSize N isInternal G (fun i _ => (8 / 3) ^ i) (radialExact isInternal a r) ∧
      (32 ≤ k * Real.cos (lat * (Real.pi / 180)) →
        |v.az - east / Real.cos (lat * (Real.pi / 180))| ≤
          2 * ((nL + (N * (k + 11) + 1) + 6 * N + 12 + k : Nat) : ℝ) * 2 ^ (-52 : ℤ) *
          (gradEastSize N G (fun i _ => (8 / 3) ^ i) (radialExact isInternal a r) /
            Real.cos (lat * (Real.pi / 180)))) := by
  obtain ⟨t, e, ht⟩ := C91_low_partial R L o lat h1 hN hl hl' hlat hk
  have one : ∀ x : ℝ, 1 ≤ x → (2 : ℝ) ^ (-300 : ℤ) ≤ x := fun x hx =>
    (zpow_le_one_of_nonpos₀ (by norm_num) (by norm_num)).trans hx
  have cnt : ∀ i ≤ N, i * (k + 11) + 1 ≤ N * (k + 11) + 1 := fun i hi => by
    have := Nat.mul_le_mul_right (k + 11) hi
    omega
  have p1 : ∀ i : Nat, (1 : ℝ) ≤ (8 / 3) ^ i := fun i => one_le_pow₀ (by norm_num)
  have hp : HoldsTri N (N * (k + 11) + 1) t.lp (fun i j => schmidtP i j (lat * (Real.pi / 180)))
      (fun i _ => (8 / 3) ^ i) := by
    intro i hi j hj
    obtain ⟨p, d, d', e1, -, r1, -⟩ := ht i hi j hj
    exact ⟨p, e1, r1.mono (cnt i hi) le_rfl, one _ (p1 i)⟩
  have hd : HoldsTri N (N * (k + 11) + 1) t.ldp
      (fun i j => Sd (Real.sin (lat * (Real.pi / 180))) (Real.cos (lat * (Real.pi / 180))) i j)
      (fun i _ => (i + 1) * (8 / 3) ^ i) := by
    intro i hi j hj
    obtain ⟨p, d, d', -, e1, -, r2, r3⟩ := ht i hi j hj
    rw [r2.unique (hasDerivAt_schmidtP i j _)] at r3
    refine ⟨d, e1, r3.mono (cnt i hi) le_rfl, one _ ?_⟩
    have := p1 i
    have : (0 : ℝ) ≤ i := Nat.cast_nonneg i
    nlinarith
  have h00 : schmidtP 0 0 (lat * (Real.pi / 180)) = 1 := by
    rw [schmidtP_eq, Sf, rho_zero_zero, Gf_self]
    norm_num
  have hd00 : Sd (Real.sin (lat * (Real.pi / 180))) (Real.cos (lat * (Real.pi / 180))) 0 0 = 0 := by
    rw [Sd, Gd_self]
    norm_num
  have hn : nL + (N * (k + 11) + 1) + 6 * N + 12 ≤ 2 ^ 40 := by
    have : N * (k + 11) ≤ 16 * (2 ^ 35 + 11) := Nat.mul_le_mul hN (by omega)
    omega
  obtain ⟨elv, helv⟩ : ∃ elv, elv = rnd (lat * dg2radF rnd Real.pi) := ⟨_, rfl⟩
  rw [← helv]
  have hc2 : |cos elv| ≤ 2 := by
    have h3 := abs_add_le (cos elv - Real.cos elv) (Real.cos elv)
    rw [sub_add_cancel] at h3
    have h4 := hcos elv
    have h5 := Real.abs_cos_le_one elv
    have h6 : (2 : ℝ) ^ (-53 : ℤ) ≤ 1 := by norm_num
    linarith
  obtain ⟨lcs, rrp, e2, e3, e4, e5⟩ := C85_tables R hcos L.sin_err b1 b2 lon r a fast isInternal hb1 hb2
    (by omega) ha hr hnL hR hra har
  obtain ⟨v, e6, e7, e8, e9⟩ := C85_gradient R hc e4 hp hd e5 h00 hd00 sin cos sqrt elv isInternal hc2
  have rad : ∀ n, a * Verif.ShPoint.radf isInternal a n r = r * radialExact isInternal a r n := fun n => by
    rw [Verif.ShPoint.radf_eq isInternal ha.ne' hr.ne', radial_rpow isInternal ha hr, mul_comm]
  refine ⟨t, lcs, rrp, v, _, gradEast N g h (fun i j => schmidtP i j (lat * (Real.pi / 180)))
    (radialExact isInternal a r) (lon * (Real.pi / 180)), _, e, e2, e3, e6, ?_, ?_, ?_,
    (e7.mono (m := nL + (N * (k + 11) + 1) + 6 * N + 12) (by omega) le_rfl).le hn,
    (e8.mono (m := nL + (N * (k + 11) + 1) + 6 * N + 12) (by omega) le_rfl).le hn,
    fun hz => ?_⟩
  · refine HasDerivAt.congr_deriv (Verif.ShPoint.potential_lat isInternal a N g h r _ _) ?_
    unfold gradNorth
    rw [Finset.mul_sum]
    exact Finset.sum_congr rfl (fun n _ => by rw [rad]; ring)
  · refine HasDerivAt.congr_deriv (Verif.ShPoint.potential_lon isInternal a N g h r _ _) ?_
    unfold gradEast
    rw [Finset.mul_sum, ← Finset.sum_neg_distrib]
    refine Finset.sum_congr rfl (fun n _ => ?_)
    rw [rad, mul_assoc, ← mul_neg, ← mul_neg, ← Finset.sum_neg_distrib]
    congr 2
    exact Finset.sum_congr rfl (fun m _ => by ring)
  · refine HasDerivAt.congr_deriv (Verif.ShPoint.potential_rad isInternal N g h _ _ ha.ne' hr.ne') ?_
    unfold gradUp
    rw [← Finset.sum_neg_distrib]
    refine Finset.sum_congr rfl (fun n _ => ?_)
    rw [radial_rpow isInternal ha hr, idr_factor]
    ring
  · have hcc : |cos elv - Real.cos (lat * (Real.pi / 180))| ≤ 8 * 2 ^ (-53 : ℤ) := by
      rw [helv]
      exact cos_angle R hcos hlat
    refine quotient_err (k := k) (hk' := hk') hcc hz (fun h10 => ?_) hn
    exact (e9 h1 h10).mono (m := nL + (N * (k + 11) + 1) + 6 * N + 12) (by omega) le_rfl

/-- The gradient of a dipole at the latitude 45 and the longitude 90, all tables computed. -/
example : ∃ (rnd cos sin sqrt : ℝ → ℝ), Nearest rnd ∧ Accurate rnd sin sqrt ∧ ∃ t lcs rrp v north,
    legendreLowF rnd sin sqrt Real.pi ⟨[7, 7, 7], [7, 7, 7]⟩ 45 1 = some t ∧
    loncossinF rnd cos sin Real.pi [(7, 7), (7, 7)] 90 1 true = some (some lcs) ∧
    relradpowF rnd [7, 7] 2 1 1 true = some (some rrp) ∧
    evalDvF rnd sin cos sqrt (fun y => decide (|y| < 1e-10)) 1 (rnd (45 * dg2radF rnd Real.pi))
      [(0, 0), (-30000, 0), (-1500, 5000)] lcs t.lp t.ldp rrp true = some v ∧
    HasDerivAt (fun φ => Verif.Spec.potential true 1 1 (fun i j => if i = 0 then 0 else if j = 0 then -30000 else -1500)
      (fun i j => if i = 1 ∧ j = 1 then 5000 else 0) 2 φ (90 * (Real.pi / 180))) (2 * north) (45 * (Real.pi / 180)) ∧
    |v.el - north| ≤ 1 / 1000000 := by
  obtain ⟨rnd, R⟩ := Nearest.exists
  have L := (C91_pole_loss R ⟨[7, 7, 7], [7, 7, 7]⟩ rfl rfl).2.1
  have hone : ∀ y : ℝ, |y| ≤ 1 → |rnd y - y| ≤ 2 ^ (-53 : ℤ) := by
    intro y hy
    refine (R.err (k := 0) (by norm_num) (by simpa using hy)).trans ?_
    exact zpow_le_zpow_right₀ (by norm_num) (by norm_num)
  have hs : ∀ {y : ℝ} {k : ℤ}, k ≤ -10 → 2 ^ (-10 : ℤ) ≤ y → 2 ^ k ≤ y :=
    fun hk hy => (zpow_le_zpow_right₀ (by norm_num) hk).trans hy
  have hx : (90 : ℝ) * (Real.pi / 180) = Real.pi / 2 := by ring
  have e : (45 : ℝ) * (Real.pi / 180) = Real.pi / 4 := by ring
  have h3 : (14 : ℝ) / 10 ≤ Real.sqrt 2 := Real.le_sqrt_of_sq_le (by norm_num)
  obtain ⟨t, lcs, rrp, v, north, east, up, e0, e1, e2, e3, d1, -, -, e4, -⟩ := C91_gradient_partial (cos := fun y => rnd (Real.cos y)) R L
    (fun y => hone _ (Real.abs_cos_le_one y)) ⟨[7, 7, 7], [7, 7, 7]⟩ [(7, 7), (7, 7)] [7, 7] 45 90 2 1 (N := 1)
    (k := 46) (nL := 23) true true (by norm_num) (by norm_num) rfl rfl rfl rfl (by norm_num)
    (Or.inr (by rw [e, Real.cos_pi_div_four]; push_cast; linarith)) (by norm_num) (by norm_num)
    (by norm_num)
    (by
      rw [hx, abs_of_pos (by positivity)]
      push_cast
      linarith [Real.pi_lt_four])
    (by norm_num)
    (by
      intro k hk
      refine hs (by norm_num) ?_
      have : k = 0 ∨ k = 1 := by omega
      rcases this with rfl | rfl <;> norm_num [radialExact])
    (hs (by norm_num) (by norm_num)) (hs (by norm_num) (by norm_num))
    (coef := [(0, 0), (-30000, 0), (-1500, 5000)])
    (g := fun i j => if i = 0 then 0 else if j = 0 then -30000 else -1500)
    (h := fun i j => if i = 1 ∧ j = 1 then 5000 else 0) (G := fun _ _ => 30000)
    (by
      intro i hi j hj
      have hG : (2 : ℝ) ^ (-300 : ℤ) ≤ 30000 := hs (by norm_num) (by norm_num)
      have : (i = 0 ∧ j = 0) ∨ (i = 1 ∧ j = 0) ∨ (i = 1 ∧ j = 1) := by omega
      rcases this with ⟨rfl, rfl⟩ | ⟨rfl, rfl⟩ | ⟨rfl, rfl⟩ <;>
        refine ⟨by simp, by norm_num, by norm_num, hG⟩)
  refine ⟨rnd, _, _, _, R, L, t, lcs, rrp, v, north, e0, e1, e2, e3, d1, e4.trans ?_⟩
  norm_num [gradNorthSize, Finset.sum_range_succ, radialExact]

end Verif.Props
