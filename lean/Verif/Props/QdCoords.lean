/-
Properties C57, C58, C59: quasi-dipole coordinates and base vectors of a point.
-/
import Verif.Lemmas.QdSeries

set_option linter.unusedSectionVars false

namespace Verif.Props

open Verif.Qd Verif.Apex Verif.Geo Verif Verif.Spec Verif.Spec.Qd

/-- The vector of the quasi-dipole coordinates of a table at an epoch and altitude, as function of the component, the
geodetic latitude and the longitude (radians). -/
def IsVector (t : Table ℝ) (e alt : ℝ) (V : ℕ → ℝ → ℝ → ℝ) : Prop :=
  ∃ C : ℕ → ℕ → ℝ → ℝ, (∀ k i, IsPolyline t.grid (fun j => t.coef i j k) (C k i)) ∧
    ∀ k lat lon, V k lat lon = component t.nmax t.mmax t.lmax (fun i => C k i e) (radiusMean / (radiusMean + alt))
      (Real.pi / 2 - lat) lon

/-- The vector exists. -/
theorem isVector_exists {t : Table ℝ} (ht : TableOk t) (e alt : ℝ) : ∃ V, IsVector t e alt V :=
  ⟨_, fun k i => polyVal t.grid (fun j => t.coef i j k), fun _ _ => polyVal_spec ht.sorted ht.epochs _, fun _ _ _ => rfl⟩

/-- C57: after a load, each coefficient is the piecewise linear interpolation of the values of the file to the epoch, and the
value of the first or last epoch outside of their range. -/
theorem C57_interpolated {F : Type} [DecidableEq F] {fs : F → Option (Table ℝ)} (junk : ℕ → ℝ) {m : Mod F ℝ} (hm : Inv fs m)
    {file : F} {t : Table ℝ} (hf : fs file = some t) (ht : TableOk t) (e : ℝ) :
    ∃ m', loadapxsh fs junk m file (.fin e) = some m' ∧ m'.loadflag = false ∧
      m'.qx.len = t.nterm ∧ m'.qy.len = t.nterm ∧ m'.qz.len = t.nterm ∧
      ∀ (C : ℕ → ℕ → ℝ → ℝ), (∀ k i, IsPolyline t.grid (fun j => t.coef i j k) (C k i)) →
        ∀ i, m'.qx.at' i = C 0 i e ∧ m'.qy.at' i = C 1 i e ∧ m'.qz.at' i = C 2 i e := by
  obtain ⟨m', e1, hL, htt, he, _⟩ := loadapxsh_spec junk hm hf ht (e := .fin e) (by simp)
  obtain ⟨w, hw, hx, hy, hz⟩ := hL.coef
  rw [he, htt] at hw
  rw [htt] at hx hy hz
  refine ⟨m', e1, hL.flag, by rw [hx]; rfl, by rw [hy]; rfl, by rw [hz]; rfl, fun C hC i => ⟨?_, ?_, ?_⟩⟩
  · rw [hx, polyline_eq ht.sorted ht.epochs (hC 0 i) hw]; rfl
  · rw [hy, polyline_eq ht.sorted ht.epochs (hC 1 i) hw]; rfl
  · rw [hz, polyline_eq ht.sorted ht.epochs (hC 2 i) hw]; rfl

/-- C57: the interpolation weights are those of an average, of epochs of the file. -/
theorem C57_average {grid : List ℝ} (hs : grid.Pairwise (· < ·)) (h : 0 < grid.length) (e : ℝ) :
    ∃ i j w, weights grid (.fin e) = some (i, j, w) ∧ i < grid.length ∧ j < grid.length ∧ 0 ≤ w ∧ w ≤ 1 := by
  obtain ⟨⟨i, j, w⟩, e1, b1, b2, b3, b4, _⟩ := weights_clamp hs h e
  exact ⟨i, j, w, e1, b1, b2, b3, b4⟩

/-- C57: a NaN epoch with more than one epoch in the file has no interval: the code reads out of the array. -/
theorem C57_nan {grid : List ℝ} (h : 2 ≤ grid.length) : weights grid .nan = none := by
  unfold weights clampEpoch
  match grid, h with
  | a :: b :: l, _ => simp [X.lt, List.getLast?_cons]

/-- C58: latitude in [-90, 90] and longitude in (-180, 180] are the spherical coordinates of the vector of the series. -/
theorem C58_coordinates {t : Table ℝ} (ht : TableOk t) (e glat glon alt : ℝ) (vec : Bool) {V : ℕ → ℝ → ℝ → ℝ}
    (hV : IsVector t e alt V) :
    ∃ q, pointQd t (.fin e) glat glon alt vec = some q ∧ -90 ≤ q.lat ∧ q.lat ≤ 90 ∧ -180 < q.lon ∧ q.lon ≤ 180 ∧
      let x := V 0 (glat * (Real.pi / 180)) (glon * (Real.pi / 180))
      let y := V 1 (glat * (Real.pi / 180)) (glon * (Real.pi / 180))
      let z := V 2 (glat * (Real.pi / 180)) (glon * (Real.pi / 180))
      let r := Real.sqrt (x ^ 2 + y ^ 2 + z ^ 2)
      r * Real.cos (q.lat * (Real.pi / 180)) * Real.cos (q.lon * (Real.pi / 180)) = x ∧
      r * Real.cos (q.lat * (Real.pi / 180)) * Real.sin (q.lon * (Real.pi / 180)) = y ∧
      r * Real.sin (q.lat * (Real.pi / 180)) = z := by
  obtain ⟨w, hw, _⟩ := weights_clamp ht.sorted ht.epochs e
  obtain ⟨C, hC, hVC⟩ := hV
  obtain ⟨c, hc, hch, hcs⟩ := colAt_spec ht hw alt
  obtain ⟨s, w', e1, -, hs⟩ := evalPoint_spec ht.pos ht.le (freshWork_ok ht.pos ht.le) c glat glon vec
  have hth : (90 - glat) * (Real.pi / 180) = Real.pi / 2 - glat * (Real.pi / 180) := by ring
  have hVk : ∀ k lat lon, V k lat lon = component t.nmax t.mmax t.lmax (coefs t w k) (radiusMean / (radiusMean + alt))
      (Real.pi / 2 - lat) lon := by
    intro k lat lon
    rw [hVC]
    congr 1
    funext i
    exact polyline_eq ht.sorted ht.epochs (hC k i) hw
  have hx : Apex.dot s.sh c.x = V 0 (glat * (Real.pi / 180)) (glon * (Real.pi / 180)) := by
    rw [(hs c.x).1, (hcs _ _).1, hVk, hth]
  have hy : Apex.dot s.sh c.y = V 1 (glat * (Real.pi / 180)) (glon * (Real.pi / 180)) := by
    rw [(hs c.y).1, (hcs _ _).2.1, hVk, hth]
  have hz : Apex.dot s.sh c.z = V 2 (glat * (Real.pi / 180)) (glon * (Real.pi / 180)) := by
    rw [(hs c.z).1, (hcs _ _).2.2, hVk, hth]
  refine ⟨_, by unfold pointQd; rw [hc]; simp only [Option.bind_eq_bind, Option.bind_some, e1]; rfl, ?_⟩
  generalize hX : V 0 (glat * (Real.pi / 180)) (glon * (Real.pi / 180)) = x at *
  generalize hY : V 1 (glat * (Real.pi / 180)) (glon * (Real.pi / 180)) = y at *
  generalize hZ : V 2 (glat * (Real.pi / 180)) (glon * (Real.pi / 180)) = z at *
  have hlat : (outputs libm c s ((90 - glat) * dtor libm) vec).lat = atan2 z (Real.sqrt (x * x + y * y)) / (Real.pi / 180) := by
    have : (outputs libm c s ((90 - glat) * dtor libm) vec).lat = libm.atan2 (Apex.dot s.sh c.z) (libm.sqrt (Apex.dot s.sh c.x * Apex.dot s.sh c.x + Apex.dot s.sh c.y * Apex.dot s.sh c.y)) / dtor libm := by
      unfold outputs; cases vec <;> rfl
    rw [this, hx, hy, hz]; rfl
  have hlon : (outputs libm c s ((90 - glat) * dtor libm) vec).lon = atan2 y x / (Real.pi / 180) := by
    have : (outputs libm c s ((90 - glat) * dtor libm) vec).lon = libm.atan2 (Apex.dot s.sh c.y) (Apex.dot s.sh c.x) / dtor libm := by
      unfold outputs; cases vec <;> rfl
    rw [this, hx, hy]; rfl
  have hpi := Real.pi_pos
  have hd : 0 < Real.pi / 180 := by positivity
  have h1 := abs_le.mp (atan2_abs_le z (Real.sqrt (x * x + y * y)) (Real.sqrt_nonneg _))
  have h2 := atan2_mem y x
  rw [hlat, hlon]
  simp only [div_mul_cancel₀ _ hd.ne']
  have hr2 : Real.sqrt (x ^ 2 + y ^ 2 + z ^ 2) = Real.sqrt (Real.sqrt (x * x + y * y) * Real.sqrt (x * x + y * y) + z * z) := by
    rw [Real.mul_self_sqrt (by nlinarith [mul_self_nonneg x, mul_self_nonneg y])]; congr 1; ring
  refine ⟨?_, ?_, ?_, ?_, ?_, ?_, ?_⟩
  · rw [le_div_iff₀ hd]; linarith [h1.1]
  · rw [div_le_iff₀ hd]; linarith [h1.2]
  · rw [lt_div_iff₀ hd]; linarith [h2.1]
  · rw [div_le_iff₀ hd]; linarith [h2.2]
  · rw [hr2, cos_atan2, cos_atan2]
  · rw [hr2, cos_atan2, sin_atan2]
  · rw [hr2, sin_atan2]


/-- The curvature radii with the altitude are positive for any altitude above -6000 km. -/
theorem curvature_pos (φ alt : ℝ) (h : -6000 < alt) : 0 < radiusM φ + alt ∧ 0 < radiusN φ + alt ∧ 0 < radiusMean + alt ∧
    0 < 1 - Spec.Qd.ecc2 * Real.sin φ ^ 2 := by
  have he : Spec.Qd.ecc2 < 0.0067 ∧ 0.0066 < Spec.Qd.ecc2 := by unfold Spec.Qd.ecc2 flattening; constructor <;> norm_num
  have hm : 6371 < radiusMean := by unfold radiusMean radiusEq flattening; norm_num
  have h0 := sq_nonneg (Real.sin φ)
  have h1 : Real.sin φ ^ 2 ≤ 1 := Real.sin_sq_le_one φ
  have hj : 0 < 1 - Spec.Qd.ecc2 * Real.sin φ ^ 2 := by nlinarith
  have hj1 : 1 - Spec.Qd.ecc2 * Real.sin φ ^ 2 ≤ 1 := by nlinarith
  have hs : 0 < Real.sqrt (1 - Spec.Qd.ecc2 * Real.sin φ ^ 2) := Real.sqrt_pos.mpr hj
  have hs1 : Real.sqrt (1 - Spec.Qd.ecc2 * Real.sin φ ^ 2) ≤ 1 := Real.sqrt_le_iff.mpr ⟨zero_le_one, by rw [one_pow]; exact hj1⟩
  have hN : 6378 ≤ radiusN φ := by
    unfold radiusN; rw [le_div_iff₀ hs]; unfold radiusEq; nlinarith
  have hM : 6300 ≤ radiusM φ := by
    unfold radiusM
    rw [le_div_iff₀ (by positivity)]
    have : Real.sqrt (1 - Spec.Qd.ecc2 * Real.sin φ ^ 2) ^ 3 ≤ 1 := pow_le_one₀ hs.le hs1
    unfold radiusEq; nlinarith
  exact ⟨by linarith, by linarith, by linarith, hj⟩

theorem cancel_scale (S r B : ℝ) (hr : r ≠ 0) : S * r * (B / r) = S * B := by field_simp

theorem cancel_scale_cos (S r B D c : ℝ) (hr : r ≠ 0) (hc : c ≠ 0) : S * r * (c * B / r) / (D * c) = S * B / D := by
  rcases eq_or_ne D 0 with rfl | hD
  · simp
  · field_simp

/-- C59: the components of the base vectors are, up to the length of the vector of the series, the gradients of the quasi-dipole latitude
and longitude: derivatives along the meridian (radius of curvature `M`) and along the parallel (`N cos φ`) at the
altitude, multiplied by the mean radius plus altitude. -/
theorem C59_base_vectors {t : Table ℝ} (ht : TableOk t) (e glat glon alt : ℝ) {V : ℕ → ℝ → ℝ → ℝ} (hV : IsVector t e alt V)
    (halt : -6000 < alt) (hpole : -90 < glat ∧ glat < 90)
    (hcut : 0 < V 0 (glat * (Real.pi / 180)) (glon * (Real.pi / 180)) ∨ V 1 (glat * (Real.pi / 180)) (glon * (Real.pi / 180)) ≠ 0) :
    let φ := glat * (Real.pi / 180)
    let lam := glon * (Real.pi / 180)
    let qlat := fun a b : ℝ => atan2 (V 2 a b) (Real.sqrt (V 0 a b * V 0 a b + V 1 a b * V 1 a b))
    let qlon := fun a b : ℝ => atan2 (V 1 a b) (V 0 a b)
    let r := Real.sqrt (V 0 φ lam * V 0 φ lam + V 1 φ lam * V 1 φ lam + V 2 φ lam * V 2 φ lam)
    let scale := (radiusMean + alt) * r
    ∃ q latn late lonn lone, pointQd t (.fin e) glat glon alt true = some q ∧
      HasDerivAt (fun a => qlat a lam) latn φ ∧ HasDerivAt (fun b => qlat φ b) late lam ∧
      HasDerivAt (fun a => qlon a lam) lonn φ ∧ HasDerivAt (fun b => qlon φ b) lone lam ∧
      q.lat = qlat φ lam * (180 / Real.pi) ∧ q.lon = qlon φ lam * (180 / Real.pi) ∧
      q.f11 = scale * latn / (radiusM φ + alt) ∧
      q.f12 = -(scale * late / ((radiusN φ + alt) * Real.cos φ)) ∧
      q.f21 = -(scale * Real.cos (qlat φ lam) * lonn / (radiusM φ + alt)) ∧
      q.f22 = scale * Real.cos (qlat φ lam) * lone / ((radiusN φ + alt) * Real.cos φ) ∧
      q.f = q.f11 * q.f22 - q.f12 * q.f21 := by
  intro φ lam qlat qlon r scale
  obtain ⟨w, hw, _⟩ := weights_clamp ht.sorted ht.epochs e
  obtain ⟨C, hC, hVC⟩ := hV
  obtain ⟨c, hc, hch, hcs⟩ := colAt_spec ht hw alt
  obtain ⟨s, w', e1, -, hs⟩ := evalPoint_spec ht.pos ht.le (freshWork_ok ht.pos ht.le) c glat glon true
  have hth : (90 - glat) * (Real.pi / 180) = Real.pi / 2 - φ := by simp only [φ]; ring
  rw [hth] at hs
  simp only at hs
  have hVk : ∀ k lat lon, V k lat lon = component t.nmax t.mmax t.lmax (coefs t w k) (radiusMean / (radiusMean + alt))
      (Real.pi / 2 - lat) lon := by
    intro k lat lon
    rw [hVC]
    congr 1
    funext i
    exact polyline_eq ht.sorted ht.epochs (hC k i) hw
  have hcos : Real.sin (Real.pi / 2 - φ) = Real.cos φ := Real.sin_pi_div_two_sub φ
  have hsin : Real.cos (Real.pi / 2 - φ) = Real.sin φ := Real.cos_pi_div_two_sub φ
  have hφ : 0 < Real.cos φ := by
    have := Real.pi_pos
    refine Real.cos_pos_of_mem_Ioo ⟨?_, ?_⟩ <;> simp only [φ] <;> nlinarith [hpole.1, hpole.2]
  have key : ∀ (k : ℕ) (v : Vec ℝ), (∀ θ lon, shSeries t.nmax t.mmax (ca t.nmax v.at') (cb t.nmax v.at') θ lon =
        component t.nmax t.mmax t.lmax (coefs t w k) (radiusMean / (radiusMean + alt)) θ lon) →
      Apex.dot s.sh v = V k φ lam ∧ HasDerivAt (fun a => V k a lam) (-Apex.dot s.gt v) φ ∧
      HasDerivAt (fun b => V k φ b) (Real.cos φ * Apex.dot s.gp v) lam := by
    intro k v hv
    obtain ⟨h1, h2⟩ := hs v
    obtain ⟨h2, h3, -⟩ := h2 trivial
    refine ⟨?_, ?_, ?_⟩
    · rw [h1, hv, hVk]
    · have hd := (hasDerivAt_series_theta t.nmax t.mmax v.at' (Real.pi / 2 - φ) lam).differentiableAt.hasDerivAt
      rw [show (glon * (Real.pi / 180)) = lam from rfl] at h2
      rw [← h2] at hd
      have hi : HasDerivAt (fun a : ℝ => Real.pi / 2 - a) (-1) φ := by
        simpa using (hasDerivAt_id φ).const_sub (Real.pi / 2)
      have := HasDerivAt.comp φ hd hi
      have hfe : (fun a => V k a lam) = (fun t' => shSeries t.nmax t.mmax (ca t.nmax v.at') (cb t.nmax v.at') t' lam) ∘ fun a : ℝ => Real.pi / 2 - a := by
        funext a; simp only [Function.comp, hv, hVk]
      rw [hfe]
      refine this.congr_deriv ?_
      ring
    · have hd := (hasDerivAt_series_phi t.nmax t.mmax v.at' (Real.pi / 2 - φ) lam).differentiableAt.hasDerivAt
      rw [show (glon * (Real.pi / 180)) = lam from rfl] at h3
      rw [← h3, hcos] at hd
      have hfe : (fun b => V k φ b) = fun t' => shSeries t.nmax t.mmax (ca t.nmax v.at') (cb t.nmax v.at') (Real.pi / 2 - φ) t' := by
        funext b; simp only [hv, hVk]
      rw [hfe]
      exact hd
  obtain ⟨x0, x1, x2⟩ := key 0 c.x (fun θ lon => (hcs θ lon).1)
  obtain ⟨y0, y1, y2⟩ := key 1 c.y (fun θ lon => (hcs θ lon).2.1)
  obtain ⟨z0, z1, z2⟩ := key 2 c.z (fun θ lon => (hcs θ lon).2.2)
  obtain ⟨dn1, dn2⟩ := hasDerivAt_latlon x1 y1 z1 hcut
  obtain ⟨de1, de2⟩ := hasDerivAt_latlon x2 y2 z2 hcut
  refine ⟨_, _, _, _, _, by unfold pointQd; rw [hc]; simp only [Option.bind_eq_bind, Option.bind_some, e1]; rfl, dn2, de2, dn1, de1, ?_⟩
  have hp : 0 < V 0 φ lam * V 0 φ lam + V 1 φ lam * V 1 φ lam := by
    rcases hcut with h | h
    · have h := mul_pos h h
      have := mul_self_nonneg (V 1 φ lam); simp only [φ, lam] at this ⊢; linarith
    · have h := mul_self_pos.mpr h
      have := mul_self_nonneg (V 0 φ lam); simp only [φ, lam] at this ⊢; linarith
  have hr : 0 < r := Real.sqrt_pos.mpr (by have := mul_self_nonneg (V 2 φ lam); linarith)
  have hR : r * Real.cos (qlat φ lam) = Real.sqrt (V 0 φ lam * V 0 φ lam + V 1 φ lam * V 1 φ lam) := by
    have := cos_atan2 (V 2 φ lam) (Real.sqrt (V 0 φ lam * V 0 φ lam + V 1 φ lam * V 1 φ lam))
    rw [Real.mul_self_sqrt hp.le] at this
    exact this
  have hR0 := Real.sqrt_pos.mpr hp
  obtain ⟨cM, cN, cR, cj⟩ := curvature_pos φ alt halt
  have hsj := Real.sqrt_pos.mpr cj
  have hd180 : ∀ a : ℝ, a / (Real.pi / 180) = a * (180 / Real.pi) := by intro a; rw [div_div_eq_mul_div, mul_div_assoc]
  have hjM : (alt + (1 - Spec.Qd.ecc2) * (radiusEq / Real.sqrt (1 - Spec.Qd.ecc2 * Real.sin φ * Real.sin φ)) /
      (1 - Spec.Qd.ecc2 * Real.sin φ * Real.sin φ)) = radiusM φ + alt := by
    have : 1 - Spec.Qd.ecc2 * Real.sin φ * Real.sin φ = 1 - Spec.Qd.ecc2 * Real.sin φ ^ 2 := by ring
    rw [this]
    unfold radiusM
    have h2 : Real.sqrt (1 - Spec.Qd.ecc2 * Real.sin φ ^ 2) ^ 3 =
        Real.sqrt (1 - Spec.Qd.ecc2 * Real.sin φ ^ 2) * (1 - Spec.Qd.ecc2 * Real.sin φ ^ 2) := by
      rw [pow_succ, pow_two, Real.mul_self_sqrt cj.le]; ring
    rw [h2]
    field_simp
    ring
  have hrN : alt + radiusEq / Real.sqrt (1 - Spec.Qd.ecc2 * Real.sin φ * Real.sin φ) = radiusN φ + alt := by
    have : 1 - Spec.Qd.ecc2 * Real.sin φ * Real.sin φ = 1 - Spec.Qd.ecc2 * Real.sin φ ^ 2 := by ring
    rw [this]
    unfold radiusN
    ring
  have hθ' : libm.cos ((90 - glat) * dtor libm) = Real.sin φ := by
    rw [← hsin, ← hth]; rfl
  have hat : ∀ a b, libm.atan2 a b = atan2 a b := fun _ _ => rfl
  have hsq : ∀ a, libm.sqrt a = Real.sqrt a := fun _ => rfl
  have hcc : ∀ a, libm.cos a = Real.cos a := fun _ => rfl
  have hss : ∀ a, libm.sin a = Real.sin a := fun _ => rfl
  have hdt : dtor libm = Real.pi / 180 := rfl
  have hg : ∀ A j : ℝ, A / (j / (radiusMean + alt)) = (radiusMean + alt) * A / j := by
    intro A j; rw [div_div_eq_mul_div]; ring
  simp only [outputs, gradients, if_true, hθ', x0, y0, z0, hch, req_eq, re_eq, ecc2_eq]
  simp only [hat, hsq, hcc, hss, hjM, hrN, hdt, hd180, hg]
  refine ⟨rfl, rfl, ?_, ?_, ?_, ?_, trivial⟩
  · exact (congrArg (· / (radiusM φ + alt)) (cancel_scale _ _ _ hr.ne')).symm
  · refine congrArg Neg.neg ((cancel_scale_cos _ r _ _ _ hr.ne' hφ.ne').symm.trans (congrArg (fun a => scale * (a / r) / ((radiusN φ + alt) * Real.cos φ)) ?_))
    ring
  · have e : scale * Real.cos (qlat φ lam) = (radiusMean + alt) * Real.sqrt (V 0 φ lam * V 0 φ lam + V 1 φ lam * V 1 φ lam) := by
      rw [← hR]; exact mul_assoc _ _ _
    rw [e]
    exact congrArg Neg.neg (congrArg (· / (radiusM φ + alt)) (cancel_scale _ _ _ hR0.ne')).symm
  · have e : scale * Real.cos (qlat φ lam) = (radiusMean + alt) * Real.sqrt (V 0 φ lam * V 0 φ lam + V 1 φ lam * V 1 φ lam) := by
      rw [← hR]; exact mul_assoc _ _ _
    rw [e]
    refine (cancel_scale_cos _ _ _ _ _ hR0.ne' hφ.ne').symm.trans (congrArg (fun a => (radiusMean + alt) * Real.sqrt (V 0 φ lam * V 0 φ lam + V 1 φ lam * V 1 φ lam) *
      (a / Real.sqrt (V 0 φ lam * V 0 φ lam + V 1 φ lam * V 1 φ lam)) / ((radiusN φ + alt) * Real.cos φ)) ?_)
    ring

end Verif.Props
