/-
Helper lemmas on angles and Ferrari's solution.
-/
import Verif.Spec.Libm
import Mathlib.Tactic.LinearCombination
import Mathlib.Tactic.Positivity
import Mathlib.Tactic.FieldSimp

set_option linter.unusedSectionVars false

namespace Verif.Spec

open Verif.Geo

/-! ### `atan2` -/

theorem atan2_mem (y x : ℝ) : -Real.pi < atan2 y x ∧ atan2 y x ≤ Real.pi :=
  ⟨Complex.neg_pi_lt_arg _, Complex.arg_le_pi _⟩

/-- Polar coordinates are recovered. -/
theorem atan2_polar {r θ : ℝ} (hr : 0 < r) (h1 : -Real.pi < θ) (h2 : θ ≤ Real.pi) :
    atan2 (r * Real.sin θ) (r * Real.cos θ) = θ := by
  unfold atan2
  have : (⟨r * Real.cos θ, r * Real.sin θ⟩ : ℂ) = r * (Complex.cos θ + Complex.sin θ * Complex.I) := by
    apply Complex.ext <;> simp [Complex.cos_ofReal_re, Complex.sin_ofReal_re]
  rw [this]
  exact Complex.arg_mul_cos_add_sin_mul_I hr ⟨h1, h2⟩

/-- Cartesian coordinates are recovered. -/
theorem cos_atan2 (y x : ℝ) : Real.sqrt (x * x + y * y) * Real.cos (atan2 y x) = x := by
  have h := Complex.norm_mul_cos_arg ⟨x, y⟩
  have : ‖(⟨x, y⟩ : ℂ)‖ = Real.sqrt (x * x + y * y) := by
    rw [Complex.norm_def, Complex.normSq_apply]
  rw [this] at h
  exact h

theorem sin_atan2 (y x : ℝ) : Real.sqrt (x * x + y * y) * Real.sin (atan2 y x) = y := by
  have h := Complex.norm_mul_sin_arg ⟨x, y⟩
  have : ‖(⟨x, y⟩ : ℂ)‖ = Real.sqrt (x * x + y * y) := by
    rw [Complex.norm_def, Complex.normSq_apply]
  rw [this] at h
  exact h

theorem atan2_abs_le (y x : ℝ) (hx : 0 ≤ x) : |atan2 y x| ≤ Real.pi / 2 :=
  Complex.abs_arg_le_pi_div_two_iff.mpr hx

/-! ### Ferrari's solution -/

/-- Region in which the intermediate values of Ferrari's solution exist: outside of the
evolute of the meridian ellipse. -/
def Outside (pa2 zt ee4 : ℝ) : Prop :=
  let rh := (pa2 + zt - ee4) / 6
  let ss := 1 / 4 * zt * ee4 * pa2
  0 < rh ∨ (0 < ss ∧ 0 ≤ ss + 2 * (rh * rh * rh))

theorem cube_root {x : ℝ} (hx : 0 < x) :
    0 < copysign (|x| ^ ((1 : ℝ) / 3)) x ∧ copysign (|x| ^ ((1 : ℝ) / 3)) x ^ 3 = x := by
  have h1 : copysign (|x| ^ ((1 : ℝ) / 3)) x = x ^ ((1 : ℝ) / 3) := by
    unfold copysign
    rw [if_neg (not_lt.mpr hx.le), abs_of_pos hx, abs_of_nonneg (Real.rpow_nonneg hx.le _)]
  rw [h1]
  refine ⟨Real.rpow_pos_of_pos hx _, ?_⟩
  rw [← Real.rpow_natCast, ← Real.rpow_mul hx.le]
  norm_num

/-- The root of the resolvent cubic. -/
theorem resolvent {rh ss : ℝ} (hs : 0 ≤ ss) (h : 0 < rh ∨ (0 < ss ∧ 0 ≤ ss + 2 * (rh * rh * rh))) :
    let rh3 := rh * rh * rh
    let tmp := rh3 + ss + Real.sqrt (ss * (ss + 2 * rh3))
    let tt := copysign (|tmp| ^ ((1 : ℝ) / 3)) tmp
    let uu := rh + tt + rh * rh / tt
    0 < uu ∧ uu ^ 3 = 3 * rh * uu ^ 2 + 2 * ss := by
  intro rh3 tmp tt uu
  have hd : 0 ≤ ss * (ss + 2 * rh3) := by
    rcases h with h | ⟨h1, h2⟩
    · have : 0 < rh3 := by positivity
      positivity
    · exact mul_nonneg h1.le h2
  have hsq : Real.sqrt (ss * (ss + 2 * rh3)) ^ 2 = ss * (ss + 2 * rh3) := Real.sq_sqrt hd
  have htmp : 0 < tmp := by
    have := Real.sqrt_nonneg (ss * (ss + 2 * rh3))
    rcases h with h | ⟨h1, h2⟩
    · have : 0 < rh3 := by positivity
      show 0 < rh3 + ss + Real.sqrt (ss * (ss + 2 * rh3))
      linarith
    · show 0 < rh3 + ss + Real.sqrt (ss * (ss + 2 * rh3))
      have : 0 ≤ ss + 2 * rh3 := h2
      linarith
  obtain ⟨ht, ht3⟩ := cube_root htmp
  change 0 < tt at ht
  change tt ^ 3 = tmp at ht3
  have htn : tt ≠ 0 := ht.ne'
  -- tmp is a root of x^2 - 2 (rh3 + ss) x + rh3^2
  have hq : tmp ^ 2 + rh3 ^ 2 = 2 * (rh3 + ss) * tmp := by
    show (rh3 + ss + Real.sqrt (ss * (ss + 2 * rh3))) ^ 2 + rh3 ^ 2 = _ * (rh3 + ss + Real.sqrt (ss * (ss + 2 * rh3)))
    linear_combination hsq
  have hpos : 0 < uu := by
    have h2 : 0 ≤ (tt - rh) ^ 2 := sq_nonneg _
    have h3 : 0 ≤ (tt + rh) ^ 2 := sq_nonneg _
    have e : uu * tt = tt ^ 2 + rh * tt + rh ^ 2 := by
      show (rh + tt + rh * rh / tt) * tt = _
      field_simp
      ring
    have : 0 < uu * tt := by
      rw [e]
      have : 0 < tt ^ 2 := by positivity
      nlinarith [sq_nonneg (tt + 2 * rh)]
    exact pos_of_mul_pos_left this ht.le
  refine ⟨hpos, ?_⟩
  have hk : tt ^ 6 + rh ^ 6 = 2 * (rh ^ 3 + ss) * tt ^ 3 := by
    have : rh3 = rh ^ 3 := by show rh * rh * rh = _; ring
    rw [← ht3, this] at hq
    linear_combination hq
  show (rh + tt + rh * rh / tt) ^ 3 = 3 * rh * (rh + tt + rh * rh / tt) ^ 2 + 2 * ss
  field_simp
  linear_combination hk

/-- The quadratic factor. -/
theorem factor {e2 pa2 zt u : ℝ} (he : 0 < e2) (hz : 0 ≤ zt) (hu : 0 < u)
    (h : u ^ 3 = 3 * ((pa2 + zt - e2 * e2) / 6) * u ^ 2 + 2 * (1 / 4 * zt * (e2 * e2) * pa2)) :
    let v := Real.sqrt (u * u + e2 * e2 * zt)
    let w := 1 / 2 * e2 * (u + v - zt) / v
    let t := (Real.sqrt (u + v + w * w) + w) / (u + v)
    0 < t ∧ t ^ 2 * (pa2 + zt * (1 + e2 * t) ^ 2) = (1 + e2 * t) ^ 2 := by
  intro v w t
  have hvv : 0 < u * u + e2 * e2 * zt := by positivity
  have hv : 0 < v := Real.sqrt_pos.mpr hvv
  have hv2 : v ^ 2 = u * u + e2 * e2 * zt := Real.sq_sqrt hvv.le
  have huv : 0 < u + v := by linarith
  have hw : 2 * v * w = e2 * (u + v - zt) := by
    show 2 * v * (1 / 2 * e2 * (u + v - zt) / v) = _
    field_simp
  have hq2 : 0 ≤ u + v + w * w := add_nonneg huv.le (mul_self_nonneg w)
  have hqs : Real.sqrt (u + v + w * w) ^ 2 = u + v + w * w := Real.sq_sqrt hq2
  have hgt : -w < Real.sqrt (u + v + w * w) := by
    by_contra hc
    push Not at hc
    have h0 := Real.sqrt_nonneg (u + v + w * w)
    nlinarith
  have ht : 0 < t := div_pos (by linarith) huv
  refine ⟨ht, ?_⟩
  have hte : (u + v) * t = Real.sqrt (u + v + w * w) + w := by
    show (u + v) * ((Real.sqrt (u + v + w * w) + w) / (u + v)) = _
    field_simp
  have hquad : (u + v) * t ^ 2 - 2 * w * t - 1 = 0 := by
    have : (u + v) * ((u + v) * t ^ 2 - 2 * w * t - 1) = 0 := by
      have e1 : ((u + v) * t - w) ^ 2 = u + v + w * w := by rw [hte]; linear_combination hqs
      linear_combination e1
    exact (mul_eq_zero.mp this).resolve_left huv.ne'
  -- second quadratic factor (v - u) t^2 + 2 (e2 - w) t + 1
  have hmid : 2 * u - 4 * w * e2 + 4 * w ^ 2 = pa2 + zt - e2 * e2 := by
    have : v ^ 2 * (2 * u - 4 * w * e2 + 4 * w ^ 2 - (pa2 + zt - e2 * e2)) = 0 := by
      have e1 : v ^ 2 * (4 * w ^ 2 - 4 * w * e2) = e2 ^ 2 * (u - zt) ^ 2 - e2 ^ 2 * v ^ 2 := by
        linear_combination (2 * v * w - 2 * v * e2 + e2 * (u + v - zt)) * hw
      linear_combination e1 + (2 * u - (pa2 + zt)) * hv2 + 2 * h
    have := (mul_eq_zero.mp this).resolve_left (pow_ne_zero 2 hv.ne')
    linarith
  have hprod : ((u + v) * t ^ 2 - 2 * w * t - 1) * ((v - u) * t ^ 2 + 2 * (e2 - w) * t + 1) = 0 := by
    rw [hquad, zero_mul]
  linear_combination hprod - t ^ 4 * hv2 + 2 * t ^ 3 * hw - t ^ 2 * hmid

/-- The factor `kp` solves the equation of the latitude. -/
theorem ferrari_spec {p z a e2 : ℝ} (he : 0 < e2) (he1 : e2 < 1)
    (h : Outside (p / a * (p / a)) ((1 - e2) * (z / a * (z / a))) (e2 * e2)) :
    ∃ t, 0 < t ∧ ferrari libm p z a e2 = 1 + e2 * t ∧
      t ^ 2 * (p / a * (p / a) + (1 - e2) * (z / a * (z / a)) * (1 + e2 * t) ^ 2) = (1 + e2 * t) ^ 2 := by
  have hz : 0 ≤ (1 - e2) * (z / a * (z / a)) := mul_nonneg (by linarith) (mul_self_nonneg _)
  have hs : 0 ≤ 1 / 4 * ((1 - e2) * (z / a * (z / a))) * (e2 * e2) * (p / a * (p / a)) := by
    have := mul_self_nonneg (p / a)
    positivity
  obtain ⟨hu, hc⟩ := resolvent hs h
  obtain ⟨ht, he⟩ := factor he hz hu hc
  refine ⟨_, ht, ?_, he⟩
  unfold ferrari
  simp only [libm]
  rw [mul_div_assoc]

/-- The equation of the latitude has one positive solution. -/
theorem t_unique {P Z e2 s t : ℝ} (he : 0 < e2) (hP : 0 ≤ P) (hZ : 0 ≤ Z) (hs : 0 < s) (ht : 0 < t)
    (h1 : s ^ 2 * (P + Z * (1 + e2 * s) ^ 2) = (1 + e2 * s) ^ 2)
    (h2 : t ^ 2 * (P + Z * (1 + e2 * t) ^ 2) = (1 + e2 * t) ^ 2) : s = t := by
  have key : ∀ s t : ℝ, 0 < s → s < t → s ^ 2 * (P + Z * (1 + e2 * s) ^ 2) = (1 + e2 * s) ^ 2 →
      t ^ 2 * (P + Z * (1 + e2 * t) ^ 2) = (1 + e2 * t) ^ 2 → False := by
    intro s t hs hst h1 h2
    have ks : 0 < 1 + e2 * s := by positivity
    have ht : 0 < t := hs.trans hst
    have kt : 0 < 1 + e2 * t := by positivity
    have e1 : P * (s / (1 + e2 * s)) ^ 2 + Z * s ^ 2 = 1 := by
      field_simp
      linear_combination h1
    have e2' : P * (t / (1 + e2 * t)) ^ 2 + Z * t ^ 2 = 1 := by
      field_simp
      linear_combination h2
    have l1 : s / (1 + e2 * s) < t / (1 + e2 * t) := by
      rw [div_lt_div_iff₀ ks kt]
      nlinarith
    have l2 : (s / (1 + e2 * s)) ^ 2 < (t / (1 + e2 * t)) ^ 2 :=
      pow_lt_pow_left₀ l1 (by positivity) two_ne_zero
    have l3 : s ^ 2 < t ^ 2 := pow_lt_pow_left₀ hst hs.le two_ne_zero
    rcases hP.lt_or_eq with hP | hP
    · have := mul_lt_mul_of_pos_left l2 hP
      have := mul_le_mul_of_nonneg_left l3.le hZ
      linarith
    · rw [← hP] at e1 e2'
      simp only [zero_mul, zero_add] at e1 e2'
      rcases hZ.lt_or_eq with hZ | hZ
      · have := mul_lt_mul_of_pos_left l3 hZ
        linarith
      · rw [← hZ] at e1
        simp at e1
  rcases lt_trichotomy s t with h | h | h
  · exact (key s t hs h h1 h2).elim
  · exact h
  · exact (key t s ht h h2 h1).elim

/-- Geocentric to geodetic and back. -/
theorem geoc_geod_geoc {p z a e2 : ℝ} (ha : 0 < a) (he : 0 < e2) (he1 : e2 < 1) (hp : 0 ≤ p)
    (h : Outside (p / a * (p / a)) ((1 - e2) * (z / a * (z / a))) (e2 * e2)) :
    geod2geoc libm (geoc2geod libm p z a e2).1 (geoc2geod libm p z a e2).2 a e2 = (p, z) := by
  obtain ⟨t, ht, hk, heq⟩ := ferrari_spec he he1 h
  have hkp : 0 < 1 + e2 * t := by positivity
  unfold geod2geoc geoc2geod
  rw [hk]
  simp only [libm, norm2d]
  set k := 1 + e2 * t with hkd
  set D := Real.sqrt (p * p + z * k * (z * k)) with hD
  have hc := cos_atan2 (z * k) p
  have hs := sin_atan2 (z * k) p
  rw [← hD] at hc hs
  set φ := atan2 (z * k) p
  have hpz : 0 < p * p + z * k * (z * k) := by
    by_contra hc
    have h1 := mul_self_nonneg p
    have h2 := mul_self_nonneg (z * k)
    have p0 : p = 0 := mul_self_eq_zero.mp (by linarith)
    have z0 : z = 0 := by
      have : z * k = 0 := mul_self_eq_zero.mp (by linarith)
      exact (mul_eq_zero.mp this).resolve_right hkp.ne'
    rw [p0, z0] at heq
    simp at heq
    exact absurd heq.symm (pow_ne_zero 2 hkp.ne')
  have hDp : 0 < D := Real.sqrt_pos.mpr hpz
  have hD2 : D ^ 2 = p * p + z * k * (z * k) := Real.sq_sqrt hpz.le
  -- radius of curvature
  have hrad : Real.sqrt (1 - e2 * Real.sin φ * Real.sin φ) = a * k / (t * D) := by
    have e : 1 - e2 * Real.sin φ * Real.sin φ = (a * k / (t * D)) ^ 2 := by
      have h1 : Real.sin φ = z * k / D := by rw [eq_div_iff hDp.ne', mul_comm]; exact hs
      rw [h1]
      have h2 : t ^ 2 * (p ^ 2 + (1 - e2) * z ^ 2 * k ^ 2) = a ^ 2 * k ^ 2 := by
        field_simp at heq
        linear_combination heq
      field_simp
      linear_combination t ^ 2 * hD2 + h2
    rw [e]
    exact Real.sqrt_sq (by positivity)
  rw [hrad]
  have hrc : a / (a * k / (t * D)) = t * D / k := by field_simp
  rw [hrc]
  have hsum : t * D / k + D * (1 / k - (1 - e2)) / e2 = D := by
    field_simp
    rw [hkd]; ring
  refine Prod.ext ?_ ?_
  · show (t * D / k + D * (1 / k - (1 - e2)) / e2) * Real.cos φ = p
    rw [hsum]; exact hc
  · show (t * D / k * (1 - e2) + D * (1 / k - (1 - e2)) / e2) * Real.sin φ = z
    have : t * D / k * (1 - e2) + D * (1 / k - (1 - e2)) / e2 = D / k := by
      have : t * D / k * (1 - e2) + D * (1 / k - (1 - e2)) / e2 =
        (t * D / k + D * (1 / k - (1 - e2)) / e2) - e2 * t * D / k := by ring
      rw [this, hsum]
      field_simp
      rw [hkd]; ring
    rw [this, div_mul_eq_mul_div, hs]
    field_simp

/-- Geodetic to geocentric and back. -/
theorem geod_geoc_geod {φ elv a e2 : ℝ} (ha : 0 < a) (he : 0 < e2) (he1 : e2 < 1)
    (hφ : |φ| ≤ Real.pi / 2)
    (hh : 0 < a / Real.sqrt (1 - e2 * Real.sin φ * Real.sin φ) * (1 - e2) + elv)
    (h : Outside ((geod2geoc libm φ elv a e2).1 / a * ((geod2geoc libm φ elv a e2).1 / a))
      ((1 - e2) * ((geod2geoc libm φ elv a e2).2 / a * ((geod2geoc libm φ elv a e2).2 / a))) (e2 * e2)) :
    geoc2geod libm (geod2geoc libm φ elv a e2).1 (geod2geoc libm φ elv a e2).2 a e2 = (φ, elv) := by
  obtain ⟨t, ht, hk, heq⟩ := ferrari_spec he he1 h
  unfold geoc2geod
  rw [hk]
  simp only [geod2geoc, libm, norm2d] at heq ⊢
  set s := Real.sin φ with hs
  set c := Real.cos φ with hc
  have hsc : s ^ 2 + c ^ 2 = 1 := Real.sin_sq_add_cos_sq φ
  have hW2 : 0 < 1 - e2 * s * s := by
    have : s ^ 2 ≤ 1 := by nlinarith [sq_nonneg c]
    nlinarith
  have hW : 0 < Real.sqrt (1 - e2 * s * s) := Real.sqrt_pos.mpr hW2
  have hWs : Real.sqrt (1 - e2 * s * s) ^ 2 = 1 - e2 * s * s := Real.sq_sqrt hW2.le
  set W := Real.sqrt (1 - e2 * s * s)
  set N := a / W with hN
  have hNp : 0 < N := div_pos ha hW
  set M := N * (1 - e2) + elv with hM
  have hsum : N + elv = M + e2 * N := by rw [hM]; ring
  have hsp : 0 < N + elv := by rw [hsum]; positivity
  -- the actual factor is a solution
  have hsol : t = N / M := by
    refine t_unique he (mul_self_nonneg ((N + elv) * c / a))
      (mul_nonneg (by linarith) (mul_self_nonneg (M * s / a)))
      ht (div_pos hNp hh) heq ?_
    have hk' : 1 + e2 * (N / M) = (N + elv) / M := by
      rw [hsum]; field_simp
    rw [hk']
    have hNW : N * W = a := by rw [hN]; field_simp
    rw [← hNW]
    field_simp
    rw [show (1 - e2) * s ^ 2 = (1 - e2 * s * s) - c ^ 2 by linear_combination hsc, hWs]
    ring
  have hkp : 1 + e2 * t = (N + elv) / M := by
    rw [hsol, hsum]; field_simp
  rw [hkp]
  have hzk : M * s * ((N + elv) / M) = (N + elv) * s := by field_simp
  rw [hzk]
  have hD : Real.sqrt ((N + elv) * c * ((N + elv) * c) + (N + elv) * s * ((N + elv) * s)) = N + elv := by
    rw [show (N + elv) * c * ((N + elv) * c) + (N + elv) * s * ((N + elv) * s) = (N + elv) ^ 2 by
      linear_combination (N + elv) ^ 2 * hsc]
    exact Real.sqrt_sq hsp.le
  rw [hD]
  refine Prod.ext ?_ ?_
  · rw [abs_le] at hφ
    have hp := Real.pi_pos
    exact atan2_polar hsp (by linarith) (by linarith)
  · show (N + elv) * (1 / ((N + elv) / M) - (1 - e2)) / e2 = elv
    have : N + elv ≠ 0 := hsp.ne'
    field_simp
    rw [hM]; ring

/-- Sufficient condition for being outside. -/
theorem outside_of_radius {p z a e2 : ℝ} (ha : 0 < a) (he : 0 < e2) (he1 : e2 < 1)
    (h : (a * e2) ^ 2 < (1 - e2) * (p ^ 2 + z ^ 2)) :
    Outside (p / a * (p / a)) ((1 - e2) * (z / a * (z / a))) (e2 * e2) := by
  left
  have hp := sq_nonneg p
  have : 0 < p / a * (p / a) + (1 - e2) * (z / a * (z / a)) - e2 * e2 := by
    have e : p / a * (p / a) + (1 - e2) * (z / a * (z / a)) - e2 * e2 =
      (p ^ 2 + (1 - e2) * z ^ 2 - (a * e2) ^ 2) / a ^ 2 := by field_simp
    rw [e]
    refine div_pos ?_ (by positivity)
    nlinarith
  linarith

end Verif.Spec
