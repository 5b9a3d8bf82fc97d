/-
Properties C23, C24, C26, C27 and C34 of the whole `sheval` on a list of points: from the
input coordinates to the scaled outputs in the requested coordinate system, with the
caches and the work buffers.
-/
import Verif.Lemmas.FullEval
import Verif.Lemmas.Curve

set_option linter.unusedSectionVars false

namespace Verif.Props

open Verif.Geo Verif.Spec Verif.ShPoint Verif.FullEval

/-- `sheval` with real numbers on a list of points with their coefficients, after the
allocation of the buffers `b` (any content). -/
noncomputable def shevalR (int : Bool) (N : Nat) (i o : CT) (mode : Nat) (sp : ℝ) (sg : V3 ℝ)
    (b : Mem ℝ) (l : List (V3 ℝ × List (ℝ × ℝ))) : Option (List (FullEval.Out ℝ)) :=
  batchR (config int N i o sp sg) mode (init b) l

/-- Positions accepted: geodetic heights above -6313 km, any other position except the
centre of the Earth. -/
def Pos : CT → V3 ℝ → Prop
  | .geodetic, v => |v.x| ≤ 90 ∧ -6313 ≤ v.z
  | .spherical, v => |v.x| ≤ 90 ∧ 0 < v.z
  | .cartesian, v => v ≠ ⟨0, 0, 0⟩

theorem inner_pos {v : V3 ℝ} (h : v ≠ ⟨0, 0, 0⟩) : 0 < inner3 v v := by
  obtain ⟨x, y, z⟩ := v
  have h1 := mul_self_nonneg x
  have h2 := mul_self_nonneg y
  have h3 := mul_self_nonneg z
  by_contra hc
  simp only [inner3] at hc
  apply h
  rw [mul_self_eq_zero.mp (by linarith : x * x = 0), mul_self_eq_zero.mp (by linarith : y * y = 0),
    mul_self_eq_zero.mp (by linarith : z * z = 0)]

/-- The geocentric spherical coordinates of an accepted position. -/
theorem sph_ok {i : CT} {v : V3 ℝ} (h : Pos i v) :
    |(getFconv libm i .spherical v).x| ≤ 90 ∧ 0 < (getFconv libm i .spherical v).z := by
  cases i
  · obtain ⟨h1, h2⟩ := h
    obtain ⟨a, f⟩ := far_geodetic (φ := dg2rad libm * v.x) h2
    have hc := cos_nonneg_abs (lat_rad h1)
    have hk := curv_pos (dg2rad libm * v.x)
    have hp : 0 ≤ (curv (dg2rad libm * v.x) + v.z) * Real.cos (dg2rad libm * v.x) :=
      mul_nonneg (by nlinarith [eps2_pos]) hc
    constructor
    · show |atan2 _ _ * rad2dg libm| ≤ 90
      rw [mul_comm]
      exact lat_deg (atan2_abs_le _ _ hp)
    · exact Real.sqrt_pos.mpr f.pos
  · exact h
  · obtain ⟨h1, h2, -, -⟩ := cart2sph_ok (inner_pos h)
    exact ⟨h1, h2 ▸ Real.sqrt_pos.mpr (inner_pos h)⟩

section
variable (int : Bool) (N : Nat) (i o : CT) (sp : ℝ) (sg : V3 ℝ) (v : V3 ℝ)

/-- The position used by the evaluation is the converted one. -/
theorem position_sph : (position libm (config int N i o sp sg) v).1 =
    ⟨dg2rad libm * (getFconv libm i .spherical v).x, dg2rad libm * (getFconv libm i .spherical v).y,
      (getFconv libm i .spherical v).z⟩ := by
  cases i
  · exact V3.ext' (rad_deg' _).symm (rad_deg' _).symm rfl
  · rfl
  · exact V3.ext' (rad_deg' _).symm (rad_deg' _).symm rfl

/-- The geodetic latitude used by the projection is the converted one. -/
theorem position_geod (h : Pos i v) : (position libm (config int N i .geodetic sp sg) v).2 =
    some (getFconv libm i .geodetic v).x := by
  cases i
  · rfl
  · rfl
  · have hp := inner_pos h
    have hq : 0 < norm2d libm v.x v.y * norm2d libm v.x v.y + v.z * v.z := by
      rw [norm2d_eq, Real.mul_self_sqrt (add_nonneg (mul_self_nonneg _) (mul_self_nonneg _))]
      exact hp
    have e1 := sin_atan2 v.z (norm2d libm v.x v.y)
    have e2 := cos_atan2 v.z (norm2d libm v.x v.y)
    rw [← norm2d_eq, ← norm3d_norm2d] at e1 e2
    have e3 := arcsin_atan2 (norm2d_nonneg v.x v.y) hq
    rw [← norm3d_norm2d] at e3
    show some (rad2dg libm * (geoc2geod libm (norm3d libm v.x v.y v.z *
      Real.cos (Real.arcsin (v.z / norm3d libm v.x v.y v.z))) (norm3d libm v.x v.y v.z *
      Real.sin (Real.arcsin (v.z / norm3d libm v.x v.y v.z))) wgs84A wgs84Eps2).1) = _
    rw [e3, e1, e2]
    rfl

/-- Longitude of the geodetic coordinates. -/
theorem geod_lon : (getFconv libm i .geodetic v).y = (getFconv libm i .spherical v).y := by
  cases i
  · exact (deg_rad' _).symm
  · exact deg_rad _
  · exact mul_comm _ _

end

/-! ### C27: independent points -/

/-- **C27** for the concrete evaluation: each point of the batch has the outputs it has when
it is evaluated alone, with other buffers. -/
theorem C27_sheval_partial (int : Bool) (N : Nat) (hN : 1 ≤ N) (i o : CT) (mode : Nat) (sp : ℝ) (sg : V3 ℝ)
    (b b' : Mem ℝ) (hb : MemOk b N) (hb' : MemOk b' N) (l : List (V3 ℝ × List (ℝ × ℝ))) :
    shevalR int N i o mode sp sg b l =
      l.mapM (fun q => (shevalR int N i o mode sp sg b' [q]).bind List.head?) := by
  unfold shevalR
  rw [batch_fresh (config int N i o sp sg) hN mode _ (init_inv _ b hb) l b hb]
  congr 1
  funext q
  rw [batch_fresh (config int N i o sp sg) hN mode _ (init_inv _ b' hb') [q] b hb]
  simp only [List.mapM_cons, List.mapM_nil]
  cases fresh (config int N i o sp sg) mode b q.1 q.2 <;> rfl

/-- **C27**, splitting a batch. -/
theorem C27_split_partial (int : Bool) (N : Nat) (hN : 1 ≤ N) (i o : CT) (mode : Nat) (sp : ℝ) (sg : V3 ℝ)
    (b b' : Mem ℝ) (hb : MemOk b N) (hb' : MemOk b' N) (l₁ l₂ : List (V3 ℝ × List (ℝ × ℝ))) :
    shevalR int N i o mode sp sg b (l₁ ++ l₂) = do
      return (← shevalR int N i o mode sp sg b l₁) ++ (← shevalR int N i o mode sp sg b' l₂) := by
  unfold shevalR
  rw [batch_fresh (config int N i o sp sg) hN mode _ (init_inv _ b hb) _ b hb,
    batch_fresh (config int N i o sp sg) hN mode _ (init_inv _ b hb) _ b hb,
    batch_fresh (config int N i o sp sg) hN mode _ (init_inv _ b' hb') _ b hb, List.mapM_append]

/-! ### C23: potential -/

/-- Outputs of a list from the outputs of each point. -/
theorem mapM_forall₂ {α β : Type} {f : α → Option β} {R : α → β → Prop} :
    ∀ {l : List α}, (∀ q ∈ l, ∃ o, f q = some o ∧ R q o) → ∃ os, l.mapM f = some os ∧ List.Forall₂ R l os
  | [], _ => ⟨[], rfl, .nil⟩
  | q :: l, h => by
    obtain ⟨o, e, r⟩ := h q (by simp)
    obtain ⟨os, e', r'⟩ := mapM_forall₂ (l := l) (fun q hq => h q (by simp [hq]))
    exact ⟨o :: os, by rw [List.mapM_cons, e, e']; rfl, .cons r r'⟩

section
variable {int : Bool} {N : Nat} {i o : CT} {sp : ℝ} {sg : V3 ℝ}

theorem sheval_points (hN : 1 ≤ N) {mode : Nat} {b : Mem ℝ} (hb : MemOk b N)
    {l : List (V3 ℝ × List (ℝ × ℝ))} {R : V3 ℝ × List (ℝ × ℝ) → FullEval.Out ℝ → Prop}
    (h : ∀ q ∈ l, ∃ u, fresh (config int N i o sp sg) mode b q.1 q.2 = some u ∧ R q u) :
    ∃ os, shevalR int N i o mode sp sg b l = some os ∧ List.Forall₂ R l os := by
  unfold shevalR
  rw [batch_fresh (config int N i o sp sg) hN mode _ (init_inv _ b hb) l b hb]
  exact mapM_forall₂ h

end

/-- One point, through its spherical coordinates. -/
theorem fresh_eq (int : Bool) (N : Nat) (i o : CT) (sp : ℝ) (sg v : V3 ℝ) (mode : Nat) (b : Mem ℝ)
    (coef : List (ℝ × ℝ)) : fresh (config int N i o sp sg) mode b v coef =
      (pointR 6371.2 N mode int b (dg2rad libm * (getFconv libm i .spherical v).x)
        (dg2rad libm * (getFconv libm i .spherical v).y) (getFconv libm i .spherical v).z coef).bind
        (finish libm (config int N i o sp sg) (position libm (config int N i o sp sg) v)) := by
  have er : (config int N i o sp sg).cradRef = 6371.2 := by
    show (63712 / 10 : ℝ) = 6371.2
    norm_num
  unfold fresh
  simp only [position_sph, er]
  rfl

/-- Both outputs of the projection exist. -/
theorem project_some (int : Bool) (N : Nat) (i o : CT) (sp : ℝ) (sg v : V3 ℝ) (h : Pos i v) (g : Grad ℝ) :
    ∃ f, project libm (config int N i o sp sg) (position libm (config int N i o sp sg) v) g = some f := by
  cases o
  · unfold project
    simp only [config]
    have := position_geod int N i sp sg v h
    simp only [config] at this
    rw [this]
    exact ⟨_, rfl⟩
  · exact ⟨_, rfl⟩
  · exact ⟨_, rfl⟩

/-- **C23** for `sheval` (partial: from degree 1).  The potential of each point is the
expansion at its geocentric position, times the scale, for each input and output
coordinate system. -/
theorem C23_sheval_partial (int : Bool) (N : Nat) (hN : 1 ≤ N) (i o : CT) (mode : Nat)
    (hm : mode % 4 = 1 ∨ mode % 4 = 3) (sp : ℝ) (sg : V3 ℝ) (b : Mem ℝ) (hb : MemOk b N)
    (l : List (V3 ℝ × List (ℝ × ℝ))) (hl : ∀ q ∈ l, Pos i q.1 ∧ CoefOk q.2 N) :
    ∃ os, shevalR int N i o mode sp sg b l = some os ∧
      List.Forall₂ (fun q u => ∃ s : V3 ℝ, convert libm q.1 (code i) 1 = some s ∧
        u.1 = some (potential int 6371.2 N (coefG q.2) (coefH q.2) s.z (s.x * (Real.pi / 180))
          (s.y * (Real.pi / 180)) * sp)) l os := by
  refine sheval_points hN hb (fun q hq => ?_)
  obtain ⟨h1, h2⟩ := hl q hq
  obtain ⟨k1, k2⟩ := sph_ok h1
  set s := getFconv libm i .spherical q.1 with hs
  obtain ⟨g, e⟩ := C23_potential_partial N hN mode hm int b hb 6371.2 (dg2rad libm * s.x)
    (dg2rad libm * s.y) s.z (by norm_num) k2 (lat_rad k1) q.2 h2
  rw [fresh_eq, ← hs, e]
  simp only [Option.bind_some, dg2rad_mul]
  have hf : ∀ v : ℝ, ∃ w, finish libm (config int N i o sp sg) (position libm (config int N i o sp sg) q.1)
      (some v, g) = some (some (v * sp), w) := by
    intro v
    unfold finish
    cases g with
    | none => exact ⟨_, rfl⟩
    | some g =>
      obtain ⟨f, hf⟩ := project_some int N i o sp sg q.1 h1 g
      simp only [hf, Option.bind_eq_bind, Option.bind_some]
      exact ⟨_, rfl⟩
  obtain ⟨w, hw⟩ := hf (potential int 6371.2 N (coefG q.2) (coefH q.2) s.z (s.x * (Real.pi / 180))
          (s.y * (Real.pi / 180)))
  exact ⟨_, hw, s, convert_code i .spherical q.1, rfl⟩

/-! ### C24 and C34: gradient in the output coordinate system -/

/-- Cartesian components of a vector `w` given by its components in the system `o` at the
position with the coordinates `q` of that system. -/
noncomputable def toCart : CT → V3 ℝ → V3 ℝ → V3 ℝ
  | .cartesian, _, w => w
  | _, q, w => vrotSph2cart libm w q.x q.y

/-- The projection gives the components of one Cartesian vector. -/
theorem project_cart (int : Bool) (N : Nat) (i o : CT) (sp : ℝ) (sg v : V3 ℝ) (h : Pos i v) (g : Grad ℝ) :
    ∃ w, project libm (config int N i o sp sg) (position libm (config int N i o sp sg) v) g = some w ∧
      toCart o (getFconv libm i o v) w = vrotSph2cart libm ⟨g.el, g.az, g.rd⟩
        (getFconv libm i .spherical v).x (getFconv libm i .spherical v).y := by
  have hs := position_sph int N i o sp sg v
  cases o
  · have hg := position_geod int N i sp sg v h
    have hl := geod_lon i v
    refine ⟨_, by unfold project; simp only [config] at hg hs ⊢; rw [hg, hs]; rfl, ?_⟩
    simp only [toCart, vrotSph2cart, hl, rot2d, libm_sin, libm_cos]
    generalize dg2rad libm * (getFconv libm i .geodetic v).x = G
    generalize dg2rad libm * (getFconv libm i .spherical v).x = S
    have h1 := Real.sin_sub S G
    have h2 := Real.cos_sub S G
    have h3 := Real.sin_sq_add_cos_sq G
    rw [h1, h2]
    refine V3.ext' ?_ ?_ ?_ <;> dsimp only
    · linear_combination (Real.cos (dg2rad libm * (getFconv libm i .spherical v).y) *
        (g.rd * Real.cos S - g.el * Real.sin S)) * h3
    · linear_combination (Real.sin (dg2rad libm * (getFconv libm i .spherical v).y) *
        (g.rd * Real.cos S - g.el * Real.sin S)) * h3
    · linear_combination (g.rd * Real.sin S + g.el * Real.cos S) * h3
  · exact ⟨_, rfl, rfl⟩
  · refine ⟨_, rfl, ?_⟩
    rw [hs]
    rfl

/-- Derivative of the Cartesian position along a curve in spherical coordinates. -/
theorem curve_cart {p : ℝ → V3 ℝ} {d : V3 ℝ} {t : ℝ} (h : HasDeriv3 p d t) :
    HasDeriv3 (fun s => convSphCart libm (p s))
      (vadd (vsmul ((p t).z * (dg2rad libm * d.x)) (vrotSph2cart libm north (p t).x (p t).y))
        (vadd (vsmul ((p t).z * Real.cos (dg2rad libm * (p t).x) * (dg2rad libm * d.y))
          (vrotSph2cart libm east (p t).x (p t).y)) (vsmul d.z (vrotSph2cart libm up (p t).x (p t).y)))) t := by
  obtain ⟨h1, h2, h3⟩ := h
  have k1 := h1.const_mul (dg2rad libm)
  have k2 := h2.const_mul (dg2rad libm)
  refine ⟨?_, ?_, ?_⟩
  · refine ((h3.mul k1.cos).mul k2.cos).congr_deriv ?_
    simp only [vadd, vsmul, vrotSph2cart, rot2d, north, east, up, libm_sin, libm_cos, Pi.mul_apply]
    ring
  · refine ((h3.mul k1.cos).mul k2.sin).congr_deriv ?_
    simp only [vadd, vsmul, vrotSph2cart, rot2d, north, east, up, libm_sin, libm_cos, Pi.mul_apply]
    ring
  · refine (h3.mul k1.sin).congr_deriv ?_
    simp only [vadd, vsmul, vrotSph2cart, rot2d, north, east, up, libm_sin, libm_cos, Pi.mul_apply]
    ring

/-- Rotations keep scalar products. -/
theorem rot_inner (v w : V3 ℝ) (la lo : ℝ) :
    inner3 (vrotSph2cart libm v la lo) (vrotSph2cart libm w la lo) = inner3 v w := by
  have t1 := Real.sin_sq_add_cos_sq (dg2rad libm * la)
  have t2 := Real.sin_sq_add_cos_sq (dg2rad libm * lo)
  simp only [inner3, vrotSph2cart, rot2d, libm_sin, libm_cos]
  generalize Real.sin (dg2rad libm * la) = S at *
  generalize Real.cos (dg2rad libm * la) = C at *
  linear_combination ((v.z * C - v.x * S) * (w.z * C - w.x * S) + v.y * w.y) * t2 +
    (v.z * w.z + v.x * w.x) * t1

/-- `F` is the gradient (Cartesian components) at `s` of a function `U` of the spherical
coordinates (degrees): along each differentiable curve through `s`, the derivative of `U`
is the scalar product of `F` and the velocity. -/
def IsGradient (U : V3 ℝ → ℝ) (s F : V3 ℝ) : Prop :=
  ∀ (p : ℝ → V3 ℝ) (d : V3 ℝ) (t : ℝ), p t = s → HasDeriv3 p d t →
    ∃ vel : V3 ℝ, HasDeriv3 (fun x => convSphCart libm (p x)) vel t ∧
      HasDerivAt (fun x => U (p x)) (inner3 F vel) t

/-- Potential as a function of the spherical coordinates (degrees, km). -/
noncomputable def potentialAt (int : Bool) (N : Nat) (coef : List (ℝ × ℝ)) (s : V3 ℝ) : ℝ :=
  potential int 6371.2 N (coefG coef) (coefH coef) s.z (s.x * (Real.pi / 180)) (s.y * (Real.pi / 180))

/-- **C24**, **C34** for `sheval` (partial: from degree 1; not within 1e-10 of the poles).
The gradient of each point, in whichever output coordinate system, is the gradient of the
potential: its components, rotated to the Cartesian frame, give the gradient vector, which
does not depend on the output coordinate system. -/
theorem C24_sheval_partial (int : Bool) (N : Nat) (hN : 1 ≤ N) (i o : CT) (mode : Nat)
    (hm : mode % 4 = 2 ∨ mode % 4 = 3) (sp : ℝ) (sg : V3 ℝ) (b : Mem ℝ) (hb : MemOk b N)
    (l : List (V3 ℝ × List (ℝ × ℝ))) (hl : ∀ q ∈ l, Pos i q.1 ∧ CoefOk q.2 N)
    (hpole : ∀ q ∈ l, ∀ s, convert libm q.1 (code i) 1 = some s →
      1 / 10 ^ 10 ≤ |Real.cos (s.x * (Real.pi / 180))|) :
    ∃ os, shevalR int N i o mode sp sg b l = some os ∧
      List.Forall₂ (fun q u => ∃ s r w : V3 ℝ, convert libm q.1 (code i) 1 = some s ∧
        convert libm q.1 (code i) (code o) = some r ∧
        u.2 = some ⟨w.x * sg.x, w.y * sg.y, w.z * sg.z⟩ ∧
        IsGradient (potentialAt int N q.2) s (toCart o r w)) l os := by
  refine sheval_points hN hb (fun q hq => ?_)
  obtain ⟨h1, h2⟩ := hl q hq
  obtain ⟨k1, k2⟩ := sph_ok h1
  have hp := hpole q hq _ (convert_code i .spherical q.1)
  set s := getFconv libm i .spherical q.1 with hs
  rw [← dg2rad_mul] at hp
  obtain ⟨v, g, e, d1, d2, d3⟩ := C24_gradient_partial N hN mode hm int b hb 6371.2 (dg2rad libm * s.x)
    (dg2rad libm * s.y) s.z (by norm_num) k2 (lat_rad k1) hp q.2 h2
  obtain ⟨w, hw, hc⟩ := project_cart int N i o sp sg q.1 h1 g
  rw [fresh_eq, ← hs, e]
  refine ⟨_, by simp only [Option.bind_some, finish, hw, Option.bind_eq_bind]; rfl, s, _, w,
    convert_code i .spherical q.1, convert_code i o q.1, rfl, ?_⟩
  rw [hc, ← hs]
  intro p d t hpt hd
  refine ⟨_, curve_cart hd, ?_⟩
  have c1 := hd.1.const_mul (dg2rad libm)
  have c2 := hd.2.1.const_mul (dg2rad libm)
  have key := potential_curve int N (coefG q.2) (coefH q.2) (a := 6371.2) (by norm_num)
    (r := fun x => (p x).z) (φ := fun x => dg2rad libm * (p x).x) (l := fun x => dg2rad libm * (p x).y)
    (t := t) (by rw [hpt]; exact k2.ne') hd.2.2 c1 c2
    (by simp only [hpt]; exact d3) (by simp only [hpt]; exact d1) (by simp only [hpt]; exact d2)
  unfold potentialAt
  simp only [← dg2rad_mul]
  refine key.congr_deriv ?_
  rw [hpt]
  have hc := C34_components ⟨s.z * (dg2rad libm * d.x),
    s.z * Real.cos (dg2rad libm * s.x) * (dg2rad libm * d.y), d.z⟩ s.x s.y
  dsimp only at hc
  rw [← hc, rot_inner]
  simp only [inner3]
  ring

example : Pos .geodetic ⟨48, 16, 1 / 5⟩ ∧ Pos .spherical ⟨-90, 0, 6371⟩ ∧ Pos .cartesian ⟨0, 0, 7000⟩ ∧
    CoefOk [(0, 0), (-29000, 0), (-1500, 4600)] 1 := by
  refine ⟨⟨by norm_num, by norm_num⟩, ⟨by norm_num, by norm_num⟩, ?_, by simp [CoefOk]⟩
  intro h
  injection h with _ _ h
  norm_num at h

/-- **C34**, every position including the poles: whichever the output coordinate system
and the scales, the unscaled gradient is one and the same Cartesian vector. -/
theorem C34_frames_partial (int : Bool) (N : Nat) (hN : 1 ≤ N) (i : CT) (mode : Nat)
    (hm : mode % 4 = 2 ∨ mode % 4 = 3) (b : Mem ℝ) (hb : MemOk b N) (v : V3 ℝ) (hv : Pos i v)
    (coef : List (ℝ × ℝ)) (hc : CoefOk coef N) :
    ∃ F : V3 ℝ, ∀ (o : CT) (sp : ℝ) (sg : V3 ℝ), ∃ (u : Option ℝ) (w r : V3 ℝ),
      shevalR int N i o mode sp sg b [(v, coef)] = some [(u, some ⟨w.x * sg.x, w.y * sg.y, w.z * sg.z⟩)] ∧
      convert libm v (code i) (code o) = some r ∧ toCart o r w = F := by
  set s := getFconv libm i .spherical v with hs
  obtain ⟨x, g, e, e2, e3⟩ := C24_modes N hN int b hb 6371.2 (dg2rad libm * s.x) (dg2rad libm * s.y) s.z
    coef hc
  have hg : ∃ x', pointR 6371.2 N mode int b (dg2rad libm * s.x) (dg2rad libm * s.y) s.z coef =
      some (x', some g) := by
    have : ∀ k, mode % 4 = k % 4 → pointR 6371.2 N mode int b (dg2rad libm * s.x) (dg2rad libm * s.y)
        s.z coef = pointR 6371.2 N k int b (dg2rad libm * s.x) (dg2rad libm * s.y) s.z coef := by
      intro k hk
      unfold pointR point eval
      rw [hk]
    rcases hm with hm | hm
    · exact ⟨_, (this 2 hm).trans e2⟩
    · exact ⟨_, (this 3 hm).trans e3⟩
  obtain ⟨x', ex⟩ := hg
  refine ⟨vrotSph2cart libm ⟨g.el, g.az, g.rd⟩ s.x s.y, fun o sp sg => ?_⟩
  obtain ⟨w, hw, hcart⟩ := project_cart int N i o sp sg v hv g
  refine ⟨x'.map (fun y => y * sp), w, getFconv libm i o v, ?_, convert_code i o v, hcart⟩
  unfold shevalR
  rw [batch_fresh (config int N i o sp sg) hN mode _ (init_inv _ b hb) _ b hb, List.mapM_cons, fresh_eq, ← hs, ex]
  simp only [Option.bind_some, finish, hw, Option.bind_eq_bind]
  rfl

/-! ### C26: scales and linearity -/

/-- Outputs times the scales. -/
def scaleOut (sp : ℝ) (sg : V3 ℝ) (u : FullEval.Out ℝ) : FullEval.Out ℝ :=
  (u.1.map (fun y => y * sp), u.2.map (fun w => ⟨w.x * sg.x, w.y * sg.y, w.z * sg.z⟩))

/-- **C26**, scales: they multiply the potential and the components of the gradient and
have no other effect, whatever the positions and the coefficients. -/
theorem C26_scale_partial (int : Bool) (N : Nat) (hN : 1 ≤ N) (i o : CT) (mode : Nat) (sp : ℝ) (sg : V3 ℝ)
    (b : Mem ℝ) (hb : MemOk b N) (l : List (V3 ℝ × List (ℝ × ℝ))) :
    shevalR int N i o mode sp sg b l =
      (shevalR int N i o mode 1 ⟨1, 1, 1⟩ b l).map (List.map (scaleOut sp sg)) := by
  unfold shevalR
  rw [batch_fresh (config int N i o sp sg) hN mode _ (init_inv _ b hb) _ b hb,
    batch_fresh (config int N i o 1 ⟨1, 1, 1⟩) hN mode _ (init_inv _ b hb) _ b hb]
  have key : ∀ q : V3 ℝ × List (ℝ × ℝ), fresh (config int N i o sp sg) mode b q.1 q.2 =
      (fresh (config int N i o 1 ⟨1, 1, 1⟩) mode b q.1 q.2).map (scaleOut sp sg) := by
    intro q
    rw [fresh_eq, fresh_eq, Option.map_bind]
    congr 1
    funext u
    have hp : position libm (config int N i o sp sg) q.1 =
      position libm (config int N i o 1 ⟨1, 1, 1⟩) q.1 := rfl
    rw [hp]
    generalize position libm (config int N i o 1 ⟨1, 1, 1⟩) q.1 = p
    obtain ⟨u, g⟩ := u
    have hj : ∀ g, project libm (config int N i o sp sg) p g =
      project libm (config int N i o 1 ⟨1, 1, 1⟩) p g := fun _ => rfl
    unfold finish
    cases g with
    | none => cases u <;> simp [scaleOut, config]
    | some g =>
      simp only [Function.comp, hj]
      cases project libm (config int N i o 1 ⟨1, 1, 1⟩) p g <;> cases u <;> simp [scaleOut, config]
  simp only [key]
  clear key hN hb
  induction l with
  | nil => rfl
  | cons q l ih =>
    rw [List.mapM_cons, List.mapM_cons, ih]
    cases fresh (config int N i o 1 ⟨1, 1, 1⟩) mode b q.1 q.2 <;>
      cases List.mapM (fun q => fresh (config int N i o 1 ⟨1, 1, 1⟩) mode b q.1 q.2) l <;> rfl

/-- Linear combination of the outputs of one point. -/
def linOut3 (α β : ℝ) (o₁ o₂ : FullEval.Out ℝ) : FullEval.Out ℝ :=
  (do return α * (← o₁.1) + β * (← o₂.1),
   do return vadd (vsmul α (← o₁.2)) (vsmul β (← o₂.2)))

theorem finish_lin (int : Bool) (N : Nat) (i o : CT) (sp : ℝ) (sg v : V3 ℝ) (hv : Pos i v) (α β : ℝ)
    (u w : Option ℝ × Option (Grad ℝ)) : ∃ x y,
      finish libm (config int N i o sp sg) (position libm (config int N i o sp sg) v) u = some x ∧
      finish libm (config int N i o sp sg) (position libm (config int N i o sp sg) v) w = some y ∧
      finish libm (config int N i o sp sg) (position libm (config int N i o sp sg) v) (linOut α β u w) =
        some (linOut3 α β x y) := by
  obtain ⟨u, g⟩ := u
  obtain ⟨w, h⟩ := w
  have hx : (do return α * (← u) + β * (← w) : Option ℝ).map (fun v => v * sp) =
      (do return α * (← u.map (fun v => v * sp)) + β * (← w.map (fun v => v * sp))) := by
    cases u <;> cases w <;> simp
    ring
  cases g with
  | none =>
    cases h with
    | none => exact ⟨_, _, rfl, rfl, congrArg some (Prod.ext hx rfl)⟩
    | some h =>
      obtain ⟨f, hf⟩ := project_some int N i o sp sg v hv h
      refine ⟨_, _, rfl, by simp only [finish, hf, Option.bind_eq_bind, Option.bind_some]; rfl, ?_⟩
      exact congrArg some (Prod.ext hx rfl)
  | some g =>
    obtain ⟨f, hf⟩ := project_some int N i o sp sg v hv g
    cases h with
    | none =>
      refine ⟨_, _, by simp only [finish, hf, Option.bind_eq_bind, Option.bind_some]; rfl, rfl, ?_⟩
      exact congrArg some (Prod.ext hx rfl)
    | some h =>
      obtain ⟨f', hf'⟩ := project_some int N i o sp sg v hv h
      have hl : project libm (config int N i o sp sg) (position libm (config int N i o sp sg) v)
          ⟨α * g.el + β * h.el, α * g.az + β * h.az, α * g.rd + β * h.rd⟩ =
            some (vadd (vsmul α f) (vsmul β f')) := by
        unfold project at hf hf' ⊢
        cases o
        · simp only [config] at hf hf' ⊢
          have hgd := position_geod int N i sp sg v hv
          simp only [config] at hgd
          rw [hgd] at hf hf' ⊢
          simp only [Option.bind_eq_bind, Option.bind_some, Option.pure_def, Option.some.injEq] at hf hf' ⊢
          rw [← hf, ← hf']
          refine V3.ext' ?_ ?_ ?_ <;> simp only [rot2d, vadd, vsmul] <;> ring
        · simp only [config, Option.some.injEq] at hf hf' ⊢
          rw [← hf, ← hf']
          rfl
        · simp only [config, Option.some.injEq] at hf hf' ⊢
          rw [← hf, ← hf']
          refine V3.ext' ?_ ?_ ?_ <;> simp only [rot2d, vadd, vsmul] <;> ring
      refine ⟨_, _, by simp only [finish, hf, Option.bind_eq_bind, Option.bind_some]; rfl,
        by simp only [finish, hf', Option.bind_eq_bind, Option.bind_some]; rfl, ?_⟩
      show (do
        let f ← project libm (config int N i o sp sg) (position libm (config int N i o sp sg) v)
          ⟨α * g.el + β * h.el, α * g.az + β * h.az, α * g.rd + β * h.rd⟩
        let grd : Option (V3 ℝ) ← some (some (⟨f.x * sg.x, f.y * sg.y, f.z * sg.z⟩ : V3 ℝ))
        return ((do return α * (← u) + β * (← w) : Option ℝ).map (fun v => v * sp), grd)) = _
      rw [hl]
      refine congrArg some (Prod.ext hx ?_)
      show some _ = some _
      congr 1
      refine V3.ext' ?_ ?_ ?_ <;> simp only [vadd, vsmul, config] <;> ring

/-- **C26** for `sheval` (partial: from degree 1): the outputs are linear in the
coefficients, in every mode and every output coordinate system, with any scales. -/
theorem C26_sheval_partial (int : Bool) (N : Nat) (hN : 1 ≤ N) (i o : CT) (mode : Nat) (sp : ℝ) (sg : V3 ℝ)
    (b : Mem ℝ) (hb : MemOk b N) (α β : ℝ) (l : List (V3 ℝ × List (ℝ × ℝ) × List (ℝ × ℝ)))
    (hl : ∀ q ∈ l, Pos i q.1 ∧ CoefOk q.2.1 N ∧ q.2.1.length = q.2.2.length) :
    ∃ os₁ os₂,
      shevalR int N i o mode sp sg b (l.map (fun q => (q.1, q.2.1))) = some os₁ ∧
      shevalR int N i o mode sp sg b (l.map (fun q => (q.1, q.2.2))) = some os₂ ∧
      shevalR int N i o mode sp sg b (l.map (fun q => (q.1, lin α β q.2.1 q.2.2))) =
        some (List.zipWith (linOut3 α β) os₁ os₂) := by
  unfold shevalR
  rw [batch_fresh (config int N i o sp sg) hN mode _ (init_inv _ b hb) _ b hb,
    batch_fresh (config int N i o sp sg) hN mode _ (init_inv _ b hb) _ b hb,
    batch_fresh (config int N i o sp sg) hN mode _ (init_inv _ b hb) _ b hb]
  induction l with
  | nil => exact ⟨[], [], rfl, rfl, rfl⟩
  | cons q l ih =>
    obtain ⟨os₁, os₂, k1, k2, k3⟩ := ih (fun q hq => hl q (by simp [hq]))
    obtain ⟨h1, h2, h3⟩ := hl q (by simp)
    obtain ⟨u, w, e1, e2, e3⟩ := C26_linear N hN mode int b hb 6371.2
      (dg2rad libm * (getFconv libm i .spherical q.1).x) (dg2rad libm * (getFconv libm i .spherical q.1).y)
      (getFconv libm i .spherical q.1).z α β q.2.1 q.2.2 h3 h2
    obtain ⟨x, y, f1, f2, f3⟩ := finish_lin int N i o sp sg q.1 h1 α β u w
    refine ⟨x :: os₁, y :: os₂, ?_, ?_, ?_⟩
    · rw [List.map_cons, List.mapM_cons, k1, fresh_eq, e1, Option.bind_some, f1]; rfl
    · rw [List.map_cons, List.mapM_cons, k2, fresh_eq, e2, Option.bind_some, f2]; rfl
    · rw [List.map_cons, List.mapM_cons, k3, fresh_eq, e3, Option.bind_some, f3]; rfl

end Verif.Props
