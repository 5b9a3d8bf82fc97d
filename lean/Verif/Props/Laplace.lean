/-
Properties C24 and C69: the gradient of `sheval` as the gradient of a function of the
Cartesian position (the poles included), and the field it gives, without sources.
-/
import Verif.Props.FullEval
import Verif.Lemmas.Solid

set_option linter.unusedSectionVars false

namespace Verif.Props

open Verif.Geo Verif.Spec Verif.ShPoint Verif.FullEval Verif.Legendre

/-! ### Components of the gradient of the potential -/

/-- Unit vectors (radians). -/
noncomputable def northR (φ lon : ℝ) : V3 ℝ :=
  ⟨-(Real.sin φ * Real.cos lon), -(Real.sin φ * Real.sin lon), Real.cos φ⟩
noncomputable def eastR (lon : ℝ) : V3 ℝ := ⟨-Real.sin lon, Real.cos lon, 0⟩
noncomputable def upR (φ lon : ℝ) : V3 ℝ :=
  ⟨Real.cos φ * Real.cos lon, Real.cos φ * Real.sin lon, Real.sin φ⟩

theorem place_lat (r φ lon : ℝ) : HasDeriv3 (fun t => placeAt r t lon) (vsmul r (northR φ lon)) φ := by
  have c := Real.hasDerivAt_cos φ
  have s := Real.hasDerivAt_sin φ
  refine ⟨?_, ?_, ?_⟩
  · refine ((c.const_mul r).mul_const _).congr_deriv ?_; simp only [vsmul, northR]; ring
  · refine ((c.const_mul r).mul_const _).congr_deriv ?_; simp only [vsmul, northR]; ring
  · refine (s.const_mul r).congr_deriv ?_; simp only [vsmul, northR]

theorem place_lon (r φ lon : ℝ) : HasDeriv3 (fun t => placeAt r φ t) (vsmul (r * Real.cos φ) (eastR lon)) lon := by
  have c := Real.hasDerivAt_cos lon
  have s := Real.hasDerivAt_sin lon
  refine ⟨?_, ?_, ?_⟩
  · refine (c.const_mul _).congr_deriv ?_; simp only [vsmul, eastR]
  · refine (s.const_mul _).congr_deriv ?_; simp only [vsmul, eastR]
  · refine (hasDerivAt_const _ _).congr_deriv ?_; simp only [vsmul, eastR]; ring

theorem place_rad (r φ lon : ℝ) : HasDeriv3 (fun t => placeAt t φ lon) (upR φ lon) r := by
  have i := hasDerivAt_id (𝕜 := ℝ) r
  refine ⟨?_, ?_, ?_⟩
  · refine ((i.mul_const _).mul_const _).congr_deriv ?_; simp only [upR]; ring
  · refine ((i.mul_const _).mul_const _).congr_deriv ?_; simp only [upR]; ring
  · refine (i.mul_const _).congr_deriv ?_; simp only [upR]; ring

theorem place_inner {r : ℝ} (hr : 0 < r) (φ lon : ℝ) : 0 < inner3 (placeAt r φ lon) (placeAt r φ lon) := by
  have h := rad3_place hr φ lon
  rw [← rad3_sq, h]
  positivity

theorem inner_vsmul (c : ℝ) (v w : V3 ℝ) : inner3 v (vsmul c w) = c * inner3 v w := by
  simp only [inner3, vsmul]; ring

section
variable (int : Bool) {a r : ℝ} (ha : 0 < a) (hr : 0 < r) (N : ℕ) (coef : List (ℝ × ℝ)) (φ lon : ℝ)
include ha hr

/-- Derivatives of the potential through its gradient. -/
theorem potential_north : HasDerivAt (fun x => potential int a N (coefG coef) (coefH coef) r x lon)
    (r * inner3 (solidGrad int a N (coefG coef) (coefH coef) (placeAt r φ lon)) (northR φ lon)) φ := by
  simp only [potential_solid int ha hr]
  rw [← inner_vsmul]
  exact hasGrad_solid int a N _ _ (place_inner hr φ lon) (fun t => placeAt r t lon) _ φ rfl (place_lat r φ lon)

theorem potential_east : HasDerivAt (fun x => potential int a N (coefG coef) (coefH coef) r φ x)
    (r * Real.cos φ * inner3 (solidGrad int a N (coefG coef) (coefH coef) (placeAt r φ lon)) (eastR lon)) lon := by
  simp only [potential_solid int ha hr]
  rw [← inner_vsmul]
  exact hasGrad_solid int a N _ _ (place_inner hr φ lon) (fun t => placeAt r φ t) _ lon rfl (place_lon r φ lon)

theorem potential_up : HasDerivAt (fun x => potential int a N (coefG coef) (coefH coef) x φ lon)
    (inner3 (solidGrad int a N (coefG coef) (coefH coef) (placeAt r φ lon)) (upR φ lon)) r := by
  have h := hasGrad_solid int a N (coefG coef) (coefH coef) (place_inner hr φ lon)
    (fun t => placeAt t φ lon) _ r rfl (place_rad r φ lon)
  refine h.congr_of_eventuallyEq ?_
  filter_upwards [lt_mem_nhds hr] with x hx
  exact potential_solid int ha hx N _ _ φ lon

/-- The continued east component is the component of the gradient, the poles included. -/
theorem azCont_east (hφ : |φ| ≤ Real.pi / 2) : azCont int (r / a) N coef lon φ =
    inner3 (solidGrad int a N (coefG coef) (coefH coef) (placeAt r φ lon)) (eastR lon) := by
  have hp := Real.pi_pos
  have hc : Continuous (fun x => inner3 (solidGrad int a N (coefG coef) (coefH coef) (placeAt r x lon)) (eastR lon)) := by
    have hd : ∀ x, ContinuousAt (fun x => (solidGrad int a N (coefG coef) (coefH coef) (placeAt r x lon)).x) x ∧
        ContinuousAt (fun x => (solidGrad int a N (coefG coef) (coefH coef) (placeAt r x lon)).y) x ∧
        ContinuousAt (fun x => (solidGrad int a N (coefG coef) (coefH coef) (placeAt r x lon)).z) x := by
      intro x
      obtain ⟨h1, h2, h3⟩ := hasGrad_solidGrad int a N (coefG coef) (coefH coef) (place_inner hr x lon)
      exact ⟨(h1 (fun t => placeAt r t lon) _ x rfl (place_lat r x lon)).continuousAt, (h2 (fun t => placeAt r t lon) _ x rfl (place_lat r x lon)).continuousAt,
        (h3 (fun t => placeAt r t lon) _ x rfl (place_lat r x lon)).continuousAt⟩
    have c1 := continuous_iff_continuousAt.mpr (fun x => (hd x).1)
    have c2 := continuous_iff_continuousAt.mpr (fun x => (hd x).2.1)
    have c3 := continuous_iff_continuousAt.mpr (fun x => (hd x).2.2)
    simp only [inner3]
    exact ((c1.mul continuous_const).add (c2.mul continuous_const)).add (c3.mul continuous_const)
  have heq : Set.EqOn (azCont int (r / a) N coef lon)
      (fun x => inner3 (solidGrad int a N (coefG coef) (coefH coef) (placeAt r x lon)) (eastR lon))
      (Set.Ioo (-(Real.pi / 2)) (Real.pi / 2)) := by
    intro x hx
    have hcos := (Real.cos_pos_of_mem_Ioo hx).ne'
    show azCont int (r / a) N coef lon x = inner3 _ _
    rw [← azCont_off int ha.ne' hr.ne' N coef lon x hcos, (potential_east int ha hr N coef x lon).deriv]
    field_simp
  have := heq.closure (azCont_continuous int (r / a) N coef lon) hc
  rw [closure_Ioo (by linarith)] at this
  exact this (abs_le.mp hφ)
end

/-! ### Error of the east component next to the poles -/

/-- Sum of the magnitudes of the terms left out near the poles. -/
noncomputable def azBound (int : Bool) (x : ℝ) (N : Nat) (coef : List (ℝ × ℝ)) (φ : ℝ) : ℝ :=
  ∑ n ∈ Finset.range (N + 1), |rpow int x n| * ∑ m ∈ Finset.Icc 2 n,
    (|coefG coef n m| + |coefH coef n m|) * |(Verif.Spec.sq n m).eval (Real.sin φ)| * m

theorem azCont_pole_diff (int : Bool) (x : ℝ) (N : Nat) (coef : List (ℝ × ℝ)) (lon φ : ℝ) :
    |(-∑ i ∈ Finset.range N,
      (coefG coef (i + 1) 1 * Real.sin lon - coefH coef (i + 1) 1 * Real.cos lon) * rpow int x (i + 1) *
        (Verif.Spec.sq (i + 1) 1).eval (Real.sin φ)) - azCont int x N coef lon φ| ≤
      |Real.cos φ| * azBound int x N coef φ := by
  have hsplit : ∀ n, (∑ m ∈ Finset.range (n + 1),
      (coefG coef n m * Real.sin (m * lon) - coefH coef n m * Real.cos (m * lon)) *
        (Real.cos φ ^ (m - 1) * (Verif.Spec.sq n m).eval (Real.sin φ)) * m) =
      (if n = 0 then 0 else (coefG coef n 1 * Real.sin lon - coefH coef n 1 * Real.cos lon) *
        (Verif.Spec.sq n 1).eval (Real.sin φ)) +
      ∑ m ∈ Finset.Icc 2 n, (coefG coef n m * Real.sin (m * lon) - coefH coef n m * Real.cos (m * lon)) *
        (Real.cos φ ^ (m - 1) * (Verif.Spec.sq n m).eval (Real.sin φ)) * m := by
    intro n
    rcases n with _ | n
    · simp
    · have hr : Finset.range (n + 1 + 1) = insert 0 (insert 1 (Finset.Icc 2 (n + 1))) := by
        ext k
        simp only [Finset.mem_range, Finset.mem_insert, Finset.mem_Icc]
        omega
      rw [hr, Finset.sum_insert (by simp), Finset.sum_insert (by simp)]
      simp
  have e : (-∑ i ∈ Finset.range N,
      (coefG coef (i + 1) 1 * Real.sin lon - coefH coef (i + 1) 1 * Real.cos lon) * rpow int x (i + 1) *
        (Verif.Spec.sq (i + 1) 1).eval (Real.sin φ)) - azCont int x N coef lon φ =
      ∑ n ∈ Finset.range (N + 1), rpow int x n * ∑ m ∈ Finset.Icc 2 n,
        (coefG coef n m * Real.sin (m * lon) - coefH coef n m * Real.cos (m * lon)) *
        (Real.cos φ ^ (m - 1) * (Verif.Spec.sq n m).eval (Real.sin φ)) * m := by
    unfold azCont
    simp only [hsplit, mul_add, Finset.sum_add_distrib]
    have : ∑ n ∈ Finset.range (N + 1), rpow int x n *
        (if n = 0 then 0 else (coefG coef n 1 * Real.sin lon - coefH coef n 1 * Real.cos lon) *
        (Verif.Spec.sq n 1).eval (Real.sin φ)) = ∑ i ∈ Finset.range N,
      (coefG coef (i + 1) 1 * Real.sin lon - coefH coef (i + 1) 1 * Real.cos lon) * rpow int x (i + 1) *
        (Verif.Spec.sq (i + 1) 1).eval (Real.sin φ) := by
      rw [Finset.sum_range_succ']
      simp only [Nat.add_eq_zero_iff, one_ne_zero, and_false, if_false, if_true, mul_zero, add_zero]
      exact Finset.sum_congr rfl (fun i _ => by ring)
    rw [this]
    ring
  rw [e]
  refine (Finset.abs_sum_le_sum_abs _ _).trans ?_
  unfold azBound
  rw [Finset.mul_sum]
  refine Finset.sum_le_sum (fun n _ => ?_)
  rw [abs_mul, mul_left_comm]
  refine mul_le_mul_of_nonneg_left ?_ (abs_nonneg _)
  refine (Finset.abs_sum_le_sum_abs _ _).trans ?_
  rw [Finset.mul_sum]
  refine Finset.sum_le_sum (fun m hm => ?_)
  rw [Finset.mem_Icc] at hm
  rw [abs_mul, abs_mul, abs_mul, abs_pow, Nat.abs_cast]
  have h1 : |coefG coef n m * Real.sin (m * lon) - coefH coef n m * Real.cos (m * lon)| ≤
      |coefG coef n m| + |coefH coef n m| := by
    refine (abs_sub _ _).trans ?_
    rw [abs_mul, abs_mul]
    exact add_le_add (mul_le_of_le_one_right (abs_nonneg _) (Real.abs_sin_le_one _))
      (mul_le_of_le_one_right (abs_nonneg _) (Real.abs_cos_le_one _))
  have h2 : |Real.cos φ| ^ (m - 1) ≤ |Real.cos φ| := by
    rw [show m - 1 = (m - 2) + 1 by omega, pow_succ]
    exact mul_le_of_le_one_left (abs_nonneg _) (pow_le_one₀ (abs_nonneg _) (Real.abs_cos_le_one _))
  calc _ ≤ (|coefG coef n m| + |coefH coef n m|) * (|Real.cos φ| * |(Verif.Spec.sq n m).eval (Real.sin φ)|) * m := by
        gcongr
    _ = _ := by ring

/-! ### C24: the gradient in terms of the Cartesian position -/

theorem place_sph (s : V3 ℝ) : placeAt s.z (dg2rad libm * s.x) (dg2rad libm * s.y) = convSphCart libm s := rfl

/-- The Cartesian position through the spherical coordinates. -/
theorem sph_cart {i : CT} {v : V3 ℝ} (h : Pos i v) :
    convSphCart libm (getFconv libm i .spherical v) = getFconv libm i .cartesian v := by
  cases i
  · set r := geod2geoc libm (dg2rad libm * v.x) v.z wgs84A wgs84Eps2 with hr
    obtain ⟨k1, k2⟩ := cart_polar r.1 r.2
    show placeAt (norm2d libm r.1 r.2) (dg2rad libm * (atan2 r.2 r.1 * rad2dg libm))
      (dg2rad libm * (dg2rad libm * v.y * rad2dg libm)) = _
    rw [rad_deg', rad_deg']
    refine V3.ext' ?_ ?_ ?_
    · show norm2d libm r.1 r.2 * Real.cos (atan2 r.2 r.1) * _ = r.1 * _
      rw [← k1]; rfl
    · show norm2d libm r.1 r.2 * Real.cos (atan2 r.2 r.1) * _ = r.1 * _
      rw [← k1]; rfl
    · show norm2d libm r.1 r.2 * Real.sin (atan2 r.2 r.1) = r.2
      rw [← k2]
  · rfl
  · exact (cart2sph_ok (inner_pos h)).2.2.2

theorem rot_comp (g : V3 ℝ) (la lo : ℝ) : vrotSph2cart libm g la lo =
    vadd (vsmul g.x (northR (dg2rad libm * la) (dg2rad libm * lo)))
      (vadd (vsmul g.y (eastR (dg2rad libm * lo))) (vsmul g.z (upR (dg2rad libm * la) (dg2rad libm * lo)))) := by
  refine V3.ext' ?_ ?_ ?_ <;>
    simp only [vrotSph2cart, rot2d, vadd, vsmul, northR, eastR, upR, libm_sin, libm_cos] <;> ring

/-- A vector from its components. -/
theorem comp_sum (G : V3 ℝ) (φ lon : ℝ) : vadd (vsmul (inner3 G (northR φ lon)) (northR φ lon))
    (vadd (vsmul (inner3 G (eastR lon)) (eastR lon)) (vsmul (inner3 G (upR φ lon)) (upR φ lon))) = G := by
  have h1 := Real.sin_sq_add_cos_sq φ
  have h2 := Real.sin_sq_add_cos_sq lon
  refine V3.ext' ?_ ?_ ?_ <;> simp only [inner3, vadd, vsmul, northR, eastR, upR] <;>
    generalize Real.sin φ = s at * <;> generalize Real.cos φ = c at * <;>
    generalize Real.sin lon = t at * <;> generalize Real.cos lon = d at *
  · linear_combination (G.x * d ^ 2 + G.y * d * t) * h1 + G.x * h2
  · linear_combination (G.x * d * t + G.y * t ^ 2) * h1 + G.y * h2
  · linear_combination G.z * h1

/-- The components evaluated at a point: those of the gradient, apart from the east
component next to the poles. -/
theorem pointR_solid (int : Bool) (N : Nat) (hN : 1 ≤ N) (mode : Nat) (hm : mode % 4 = 2 ∨ mode % 4 = 3)
    (b : Mem ℝ) (hb : MemOk b N) (a clat clon crad : ℝ) (ha : 0 < a) (hr : 0 < crad)
    (hlat : |clat| ≤ Real.pi / 2) (coef : List (ℝ × ℝ)) (hc : CoefOk coef N) :
    ∃ v g e, pointR a N mode int b clat clon crad coef = some (v, some g) ∧
      g.el = inner3 (solidGrad int a N (coefG coef) (coefH coef) (placeAt crad clat clon)) (northR clat clon) ∧
      g.az = inner3 (solidGrad int a N (coefG coef) (coefH coef) (placeAt crad clat clon)) (eastR clon) + e ∧
      g.rd = inner3 (solidGrad int a N (coefG coef) (coefH coef) (placeAt crad clat clon)) (upR clat clon) ∧
      (1 / 10 ^ 10 ≤ |Real.cos clat| ∨ Real.cos clat = 0 → e = 0) ∧
      |e| ≤ |Real.cos clat| * azBound int (crad / a) N coef clat := by
  have hB : 0 ≤ |Real.cos clat| * azBound int (crad / a) N coef clat := by
    refine mul_nonneg (abs_nonneg _) (Finset.sum_nonneg (fun n _ => mul_nonneg (abs_nonneg _)
      (Finset.sum_nonneg (fun m _ => ?_))))
    positivity
  obtain ⟨v, g, e1, d1, d3⟩ := C24_north_radial N hN mode hm int b hb a clat clon crad ha hr hlat coef hc
  have k1 : g.el = inner3 (solidGrad int a N (coefG coef) (coefH coef) (placeAt crad clat clon)) (northR clat clon) :=
    mul_left_cancel₀ hr.ne' (d1.unique (potential_north int ha hr N coef clat clon))
  have k3 := d3.unique (potential_up int ha hr N coef clat clon)
  rcases le_or_gt (1 / 10 ^ 10) |Real.cos clat| with hp | hp
  · obtain ⟨v', g', e2, -, d2, -⟩ := C24_gradient_partial N hN mode hm int b hb a clat clon crad ha hr hlat hp coef hc
    rw [e1] at e2
    obtain ⟨-, rfl⟩ : v = v' ∧ g = g' := by simpa using e2
    have hcos : Real.cos clat ≠ 0 := by
      intro h; rw [h] at hp; norm_num at hp
    have k2 := mul_left_cancel₀ (mul_ne_zero hr.ne' hcos) (d2.unique (potential_east int ha hr N coef clat clon))
    exact ⟨v, g, 0, e1, k1, by rw [k2, add_zero], k3, fun _ => rfl, by simpa using hB⟩
  · obtain ⟨v', g', e2, haz⟩ := pointR_pole N hN mode hm int b hb a clat clon crad hp coef hc
    rw [e1] at e2
    obtain ⟨-, rfl⟩ : v = v' ∧ g = g' := by simpa using e2
    refine ⟨v, g, g.az - azCont int (crad / a) N coef clon clat, e1, k1, ?_, k3, ?_, ?_⟩
    · rw [azCont_east int ha hr N coef clat clon hlat]; ring
    · rintro (h | h)
      · linarith
      · rw [haz, ← azCont_pole int (crad / a) N coef clon clat h, sub_self]
    · rw [haz]
      exact azCont_pole_diff int (crad / a) N coef clon clat

/-- Potential output of `sheval` as a function of the Cartesian position. -/
theorem sheval_solid (int : Bool) (N : Nat) (hN : 1 ≤ N) (i o : CT) (mode : Nat)
    (hm : mode % 4 = 1 ∨ mode % 4 = 3) (sp : ℝ) (sg : V3 ℝ) (b : Mem ℝ) (hb : MemOk b N) (v : V3 ℝ) (hv : Pos i v)
    (coef : List (ℝ × ℝ)) (hc : CoefOk coef N) : ∃ g,
    shevalR int N i o mode sp sg b [(v, coef)] =
      some [(some (solid int 6371.2 N (coefG coef) (coefH coef) (getFconv libm i .cartesian v) * sp), g)] := by
  obtain ⟨os, e, hf⟩ := C23_sheval_partial int N hN i o mode hm sp sg b hb [(v, coef)]
    (by intro q hq; rw [List.mem_singleton.mp hq]; exact ⟨hv, hc⟩)
  cases hf with
  | cons h1 h2 =>
    rename_i u us
    cases h2
    obtain ⟨s, hs, hu⟩ := h1
    obtain ⟨u1, u2⟩ := u
    rw [show convert libm v (code i) 1 = some (getFconv libm i .spherical v) from convert_code i .spherical v] at hs
    cases Option.some.inj hs
    obtain ⟨k1, k2⟩ := sph_ok hv
    refine ⟨u2, ?_⟩
    rw [e]
    simp only at hu
    rw [hu, potential_solid int (by norm_num) k2, ← dg2rad_mul, ← dg2rad_mul, place_sph, sph_cart hv]

/-- Gradient output of `sheval`. -/
theorem sheval_solidGrad (int : Bool) (N : Nat) (hN : 1 ≤ N) (i o : CT) (mode : Nat)
    (hm : mode % 4 = 2 ∨ mode % 4 = 3) (sp : ℝ) (sg : V3 ℝ) (b : Mem ℝ) (hb : MemOk b N) (v : V3 ℝ) (hv : Pos i v)
    (coef : List (ℝ × ℝ)) (hc : CoefOk coef N) : ∃ u w e,
    shevalR int N i o mode sp sg b [(v, coef)] = some [(u, some ⟨w.x * sg.x, w.y * sg.y, w.z * sg.z⟩)] ∧
    toCart o (getFconv libm i o v) w =
      vadd (solidGrad int 6371.2 N (coefG coef) (coefH coef) (getFconv libm i .cartesian v))
        (vsmul e (eastR ((getFconv libm i .spherical v).y * (Real.pi / 180)))) ∧
    (1 / 10 ^ 10 ≤ |Real.cos ((getFconv libm i .spherical v).x * (Real.pi / 180))| ∨
      Real.cos ((getFconv libm i .spherical v).x * (Real.pi / 180)) = 0 → e = 0) ∧
    |e| ≤ |Real.cos ((getFconv libm i .spherical v).x * (Real.pi / 180))| *
      azBound int ((getFconv libm i .spherical v).z / 6371.2) N coef
        ((getFconv libm i .spherical v).x * (Real.pi / 180)) := by
  obtain ⟨k1, k2⟩ := sph_ok hv
  set s := getFconv libm i .spherical v with hs
  obtain ⟨x, g, e, hp, g1, g2, g3, he, hb2⟩ := pointR_solid int N hN mode hm b hb 6371.2 (dg2rad libm * s.x)
    (dg2rad libm * s.y) s.z (by norm_num) k2 (lat_rad k1) coef hc
  obtain ⟨w, hw, hcart⟩ := project_cart int N i o sp sg v hv g
  simp only [← dg2rad_mul]
  refine ⟨x.map (fun y => y * sp), w, e, ?_, ?_, he, hb2⟩
  · unfold shevalR
    rw [batch_fresh (config int N i o sp sg) hN mode _ (init_inv _ b hb) _ b hb, List.mapM_cons, fresh_eq, ← hs, hp]
    simp only [Option.bind_some, finish, hw, Option.bind_eq_bind]
    rfl
  · rw [hcart, ← hs, rot_comp, ← sph_cart hv, ← hs, ← place_sph]
    simp only [g1, g2, g3]
    set G := solidGrad int 6371.2 N (coefG coef) (coefH coef) (placeAt s.z (dg2rad libm * s.x) (dg2rad libm * s.y))
    conv_rhs => rw [← comp_sum G (dg2rad libm * s.x) (dg2rad libm * s.y)]
    refine V3.ext' ?_ ?_ ?_ <;> simp only [vadd, vsmul] <;> ring

/-- **C24** in terms of the position (partial: from degree 1; not next to the poles, but at
the poles).  There is one function of the Cartesian position which is the potential output,
whatever the coordinate systems, and its gradient is the gradient output. -/
theorem C24_position_partial (int : Bool) (N : Nat) (hN : 1 ≤ N) (coef : List (ℝ × ℝ)) (hc : CoefOk coef N) :
    ∃ U : V3 ℝ → ℝ,
      (∀ (i o : CT) (mode : Nat) (sp : ℝ) (sg : V3 ℝ) (b : Mem ℝ) (v : V3 ℝ), (mode % 4 = 1 ∨ mode % 4 = 3) →
        MemOk b N → Pos i v → ∃ c g, convert libm v (code i) 2 = some c ∧
          shevalR int N i o mode sp sg b [(v, coef)] = some [(some (U c * sp), g)]) ∧
      (∀ (i o : CT) (mode : Nat) (sp : ℝ) (sg : V3 ℝ) (b : Mem ℝ) (v s : V3 ℝ), (mode % 4 = 2 ∨ mode % 4 = 3) →
        MemOk b N → Pos i v → convert libm v (code i) 1 = some s →
        (1 / 10 ^ 10 ≤ |Real.cos (s.x * (Real.pi / 180))| ∨ Real.cos (s.x * (Real.pi / 180)) = 0) →
        ∃ c r w u, convert libm v (code i) 2 = some c ∧ convert libm v (code i) (code o) = some r ∧
          shevalR int N i o mode sp sg b [(v, coef)] = some [(u, some ⟨w.x * sg.x, w.y * sg.y, w.z * sg.z⟩)] ∧
          HasGrad U (toCart o r w) c) := by
  refine ⟨solid int 6371.2 N (coefG coef) (coefH coef), ?_, ?_⟩
  · intro i o mode sp sg b v hm hb hv
    obtain ⟨g, e⟩ := sheval_solid int N hN i o mode hm sp sg b hb v hv coef hc
    exact ⟨_, g, convert_code i .cartesian v, e⟩
  · intro i o mode sp sg b v s hm hb hv hs hp
    rw [show convert libm v (code i) 1 = some (getFconv libm i .spherical v) from convert_code i .spherical v] at hs
    cases Option.some.inj hs
    obtain ⟨u, w, e, h1, h2, h3, -⟩ := sheval_solidGrad int N hN i o mode hm sp sg b hb v hv coef hc
    refine ⟨_, _, w, u, convert_code i .cartesian v, convert_code i o v, h1, ?_⟩
    rw [h2, h3 hp, show vsmul 0 (eastR ((getFconv libm i .spherical v).y * (Real.pi / 180))) = ⟨0, 0, 0⟩ by
      simp [vsmul], show ∀ F : V3 ℝ, vadd F ⟨0, 0, 0⟩ = F by intro F; simp [vadd]]
    refine hasGrad_solid int _ N _ _ ?_
    rw [← sph_cart hv, ← place_sph]
    exact place_inner (sph_ok hv).2 _ _

/-- **C24**, at every position: next to the poles the output differs from the gradient by an
eastward vector, bounded by |cos(latitude)| (below 1e-10) times the sum of the magnitudes of
the terms of the orders above 1. -/
theorem C24_near_pole_bound (int : Bool) (N : Nat) (hN : 1 ≤ N) (coef : List (ℝ × ℝ)) (hc : CoefOk coef N) :
    ∃ U : V3 ℝ → ℝ,
      (∀ (i o : CT) (mode : Nat) (sp : ℝ) (sg : V3 ℝ) (b : Mem ℝ) (v : V3 ℝ), (mode % 4 = 1 ∨ mode % 4 = 3) →
        MemOk b N → Pos i v → ∃ c g, convert libm v (code i) 2 = some c ∧
          shevalR int N i o mode sp sg b [(v, coef)] = some [(some (U c * sp), g)]) ∧
      (∀ (i o : CT) (mode : Nat) (sp : ℝ) (sg : V3 ℝ) (b : Mem ℝ) (v s : V3 ℝ), (mode % 4 = 2 ∨ mode % 4 = 3) →
        MemOk b N → Pos i v → convert libm v (code i) 1 = some s →
        ∃ c r w u F e, convert libm v (code i) 2 = some c ∧ convert libm v (code i) (code o) = some r ∧
          shevalR int N i o mode sp sg b [(v, coef)] = some [(u, some ⟨w.x * sg.x, w.y * sg.y, w.z * sg.z⟩)] ∧
          HasGrad U F c ∧ toCart o r w = vadd F (vsmul e (vrotSph2cart libm east s.x s.y)) ∧
          |e| ≤ |Real.cos (s.x * (Real.pi / 180))| *
            azBound int (s.z / 6371.2) N coef (s.x * (Real.pi / 180))) := by
  refine ⟨solid int 6371.2 N (coefG coef) (coefH coef), ?_, ?_⟩
  · intro i o mode sp sg b v hm hb hv
    obtain ⟨g, e⟩ := sheval_solid int N hN i o mode hm sp sg b hb v hv coef hc
    exact ⟨_, g, convert_code i .cartesian v, e⟩
  · intro i o mode sp sg b v s hm hb hv hs
    rw [show convert libm v (code i) 1 = some (getFconv libm i .spherical v) from convert_code i .spherical v] at hs
    cases Option.some.inj hs
    obtain ⟨u, w, e, h1, h2, -, h4⟩ := sheval_solidGrad int N hN i o mode hm sp sg b hb v hv coef hc
    refine ⟨_, _, w, u, solidGrad int 6371.2 N (coefG coef) (coefH coef) (getFconv libm i .cartesian v), e, convert_code i .cartesian v, convert_code i o v, h1, ?_, ?_, h4⟩
    · refine hasGrad_solid int _ N (coefG coef) (coefH coef) ?_
      rw [← sph_cart hv, ← place_sph]
      exact place_inner (sph_ok hv).2 _ _
    · rw [h2]
      congr 2
      rw [← dg2rad_mul]
      refine V3.ext' ?_ ?_ ?_ <;> simp [vrotSph2cart, rot2d, eastR, east, libm_sin, libm_cos]

/-- Positions meeting the hypotheses: a pole, and a point in mid latitudes. -/
example : (Pos .spherical ⟨90, 20, 7000⟩ ∧ convert libm ⟨90, 20, 7000⟩ (code .spherical) 1 = some ⟨90, 20, 7000⟩ ∧
    Real.cos (90 * (Real.pi / 180)) = 0) ∧
    Pos .spherical ⟨60, 20, 7000⟩ ∧ 1 / 10 ^ 10 ≤ |Real.cos (60 * (Real.pi / 180))| := by
  refine ⟨⟨⟨by norm_num [abs_le], by norm_num⟩, rfl, ?_⟩, ⟨by norm_num [abs_le], by norm_num⟩, ?_⟩
  · rw [show 90 * (Real.pi / 180) = Real.pi / 2 by ring, Real.cos_pi_div_two]
  · rw [show 60 * (Real.pi / 180) = Real.pi / 3 by ring, Real.cos_pi_div_three]
    norm_num [abs_of_pos]

/-! ### C69: a field without sources -/

/-- Horizontal distance and latitude. -/
theorem cart_cos {v : V3 ℝ} (h : 0 < inner3 v v) :
    v.x ^ 2 + v.y ^ 2 = inner3 v v * Real.cos ((convCartSph libm v).x * (Real.pi / 180)) ^ 2 := by
  obtain ⟨-, k2, -, k4⟩ := cart2sph_ok h
  have hq := Real.mul_self_sqrt h.le
  rw [← k2] at hq
  rw [← dg2rad_mul, ← hq]
  have h2 := Real.sin_sq_add_cos_sq (dg2rad libm * (convCartSph libm v).y)
  have kx : (convCartSph libm v).z * Real.cos (dg2rad libm * (convCartSph libm v).x) *
      Real.cos (dg2rad libm * (convCartSph libm v).y) = v.x := congrArg V3.x k4
  have ky : (convCartSph libm v).z * Real.cos (dg2rad libm * (convCartSph libm v).x) *
      Real.sin (dg2rad libm * (convCartSph libm v).y) = v.y := congrArg V3.y k4
  rw [← kx, ← ky]
  linear_combination ((convCartSph libm v).z * Real.cos (dg2rad libm * (convCartSph libm v).x)) ^ 2 * h2

/-- Functions which agree away from the axis have the same gradients there. -/
theorem HasGrad.congr_off {f g : V3 ℝ → ℝ} {F v : V3 ℝ} (hf : HasGrad f F v) {k : ℝ}
    (hv : k * inner3 v v < v.x ^ 2 + v.y ^ 2)
    (h : ∀ w, k * inner3 w w < w.x ^ 2 + w.y ^ 2 → g w = f w) : HasGrad g F v := by
  intro c d t hc hd
  refine (hf c d t hc hd).congr_of_eventuallyEq ?_
  have c1 := hd.1.continuousAt
  have c2 := hd.2.1.continuousAt
  have c3 := hd.2.2.continuousAt
  have ca : ContinuousAt (fun s => k * inner3 (c s) (c s)) t :=
    continuousAt_const.mul (((c1.mul c1).add (c2.mul c2)).add (c3.mul c3))
  have cb : ContinuousAt (fun s => (c s).x ^ 2 + (c s).y ^ 2) t := (c1.pow 2).add (c2.pow 2)
  have := ca.eventually_lt cb (by rw [hc]; exact hv)
  filter_upwards [this] with s hs
  exact h _ hs

/-- **C69** (partial: from degree 1; not within 1e-10 of the poles).  The gradient output in
Cartesian coordinates is a field without divergence and without rotation: its derivatives
form a symmetric matrix (`xy`, `xz`, `yz` are the mixed derivatives of two components each)
with the trace zero. -/
theorem C69_laplace_partial (int : Bool) (N : Nat) (hN : 1 ≤ N) (mode : Nat) (hm : mode % 4 = 2 ∨ mode % 4 = 3)
    (sp : ℝ) (coef : List (ℝ × ℝ)) (hc : CoefOk coef N) :
    ∃ B : V3 ℝ → V3 ℝ,
      (∀ (b : Mem ℝ) (p : V3 ℝ), MemOk b N → p ≠ ⟨0, 0, 0⟩ →
        ∃ u, shevalR int N .cartesian .cartesian mode sp ⟨1, 1, 1⟩ b [(p, coef)] = some [(u, some (B p))]) ∧
      ∀ v : V3 ℝ, 1 / 10 ^ 20 * (v.x ^ 2 + v.y ^ 2 + v.z ^ 2) < v.x ^ 2 + v.y ^ 2 →
        ∃ xx yy zz xy xz yz : ℝ, HasGrad (fun p => (B p).x) ⟨xx, xy, xz⟩ v ∧
          HasGrad (fun p => (B p).y) ⟨xy, yy, yz⟩ v ∧ HasGrad (fun p => (B p).z) ⟨xz, yz, zz⟩ v ∧
          xx + yy + zz = 0 := by
  have b0 : MemOk (⟨⟨List.replicate ((N + 1) * (N + 2) / 2) 0, List.replicate ((N + 1) * (N + 2) / 2) 0⟩,
      List.replicate (N + 1) (0, 0), List.replicate (N + 1) 0⟩ : Mem ℝ) N := by
    have h2 := Nat.div_mul_cancel (Nat.even_mul_succ_self (N + 1)).two_dvd
    constructor <;> simp [h2]
  set b1 : Mem ℝ := ⟨⟨List.replicate ((N + 1) * (N + 2) / 2) 0, List.replicate ((N + 1) * (N + 2) / 2) 0⟩,
      List.replicate (N + 1) (0, 0), List.replicate (N + 1) 0⟩
  have key : ∀ p : V3 ℝ, p ≠ ⟨0, 0, 0⟩ → ∃ B : V3 ℝ,
      (∀ b, MemOk b N → ∃ u, shevalR int N .cartesian .cartesian mode sp ⟨1, 1, 1⟩ b [(p, coef)] = some [(u, some B)]) ∧
      (1 / 10 ^ 20 * (p.x ^ 2 + p.y ^ 2 + p.z ^ 2) < p.x ^ 2 + p.y ^ 2 →
        B = solidGrad int 6371.2 N (coefG coef) (coefH coef) p) := by
    intro p hp
    obtain ⟨u, w, e, h1, h2, h3, -⟩ := sheval_solidGrad int N hN .cartesian .cartesian mode hm sp ⟨1, 1, 1⟩ b1 b0 p hp
      coef hc
    refine ⟨w, fun b hb => ⟨u, ?_⟩, fun hq => ?_⟩
    · rw [C27_sheval_partial int N hN .cartesian .cartesian mode sp ⟨1, 1, 1⟩ b b1 hb b0 [(p, coef)]]
      simp only [List.mapM_cons, List.mapM_nil, h1]
      simp
    · have hcos : 1 / 10 ^ 10 ≤ |Real.cos ((getFconv libm .cartesian .spherical p).x * (Real.pi / 180))| := by
        have hi := inner_pos hp
        have hx := cart_cos hi
        have hx : p.x ^ 2 + p.y ^ 2 =
          inner3 p p * Real.cos ((getFconv libm .cartesian .spherical p).x * (Real.pi / 180)) ^ 2 := hx
        have hq' : 1 / 10 ^ 20 * inner3 p p < p.x ^ 2 + p.y ^ 2 := by
          refine lt_of_eq_of_lt ?_ hq
          simp only [inner3]; ring
        rw [hx, mul_comm] at hq'
        have := lt_of_mul_lt_mul_left hq' hi.le
        refine abs_le_of_sq_le_sq' ?_ (abs_nonneg _) |>.2
        rw [sq_abs]
        refine le_trans (by norm_num) this.le
      rw [h3 (Or.inl hcos)] at h2
      refine Eq.trans ?_ (h2.trans ?_)
      · rfl
      · refine V3.ext' ?_ ?_ ?_ <;> simp [vadd, vsmul] <;> rfl
  classical
  refine ⟨fun p => if h : p ≠ ⟨0, 0, 0⟩ then (key p h).choose else ⟨0, 0, 0⟩, ?_, ?_⟩
  · intro b p hb hp
    simp only [dif_pos hp]
    exact (key p hp).choose_spec.1 b hb
  · intro v hv
    have hne : ∀ w : V3 ℝ, 1 / 10 ^ 20 * inner3 w w < w.x ^ 2 + w.y ^ 2 → w ≠ ⟨0, 0, 0⟩ := by
      rintro w hw rfl
      simp [inner3] at hw
    have hv' : 1 / 10 ^ 20 * inner3 v v < v.x ^ 2 + v.y ^ 2 := by
      refine lt_of_eq_of_lt ?_ hv
      simp only [inner3]; ring
    have hB : ∀ w : V3 ℝ, 1 / 10 ^ 20 * inner3 w w < w.x ^ 2 + w.y ^ 2 →
        (if h : w ≠ ⟨0, 0, 0⟩ then (key w h).choose else ⟨0, 0, 0⟩) =
          solidGrad int 6371.2 N (coefG coef) (coefH coef) w := by
      intro w hw
      rw [dif_pos (hne w hw)]
      refine (key w (hne w hw)).choose_spec.2 ?_
      refine lt_of_eq_of_lt ?_ hw
      simp only [inner3]; ring
    have hi := inner_pos (hne v hv')
    obtain ⟨g1, g2, g3⟩ := hasGrad_solidGrad int 6371.2 N (coefG coef) (coefH coef) hi
    exact ⟨_, _, _, _, _, _, g1.congr_off hv' (fun w hw => by simp only [hB w hw]),
      g2.congr_off hv' (fun w hw => by simp only [hB w hw]), g3.congr_off hv' (fun w hw => by simp only [hB w hw]),
      solidHess_trace int 6371.2 N _ _ hi⟩

/-- A position and coefficients meeting the hypotheses. -/
example : (1 : ℝ) / 10 ^ 20 * ((4000 : ℝ) ^ 2 + 100 ^ 2 + 5000 ^ 2) < 4000 ^ 2 + 100 ^ 2 ∧
    CoefOk [(0, 0), (-29000, 0), (-1500, 4600)] 1 := by
  refine ⟨by norm_num, by simp [CoefOk]⟩

end Verif.Props
