/-
Properties C23 - C26: potential, gradient, poles and linearity of the spherical harmonic
evaluation.
-/
import Verif.Lemmas.Harmonic
import Verif.Props.Legendre
import Mathlib.Topology.Algebra.Polynomial
import Mathlib.Analysis.SpecialFunctions.Trigonometric.Inverse

set_option linter.unusedSectionVars false

namespace Verif.Props

open Verif.ShPoint Verif.Spec Verif.Buf Verif.Legendre

/-- Evaluation at one point with real numbers: geocentric latitude and longitude in
radians, radius, reference radius `a`. -/
noncomputable def pointR (a : ℝ) (degree mode : Nat) (isInternal : Bool) (b : Mem ℝ)
    (clat clon crad : ℝ) (coef : List (ℝ × ℝ)) : Option (Option ℝ × Option (Grad ℝ)) :=
  point Real.sin Real.cos Real.sqrt nearPole (10 ^ 280) a degree mode isInternal b clat clon crad coef

/-- Buffers allocated by `_model_init`, with any content. -/
structure MemOk (b : Mem ℝ) (N : Nat) : Prop where
  lp : b.leg.lp.length * 2 = (N + 1) * (N + 2)
  ldp : b.leg.ldp.length * 2 = (N + 1) * (N + 2)
  lcs : b.lcs.length = N + 1
  rrp : b.rrp.length = N + 1

/-- The coefficient array has all coefficients up to the degree. -/
def CoefOk (coef : List (ℝ × ℝ)) (N : Nat) : Prop := (N + 1) * (N + 2) ≤ coef.length * 2

theorem memOk_tri {b : Mem ℝ} {N : Nat} (h : MemOk b N) :
    b.leg.lp.length = tri (N + 1) ∧ b.leg.ldp.length = tri (N + 1) := by
  have e := tri_mul (N + 1)
  have a := h.lp
  have b := h.ldp
  constructor <;> nlinarith

theorem coefOk_tri {coef : List (ℝ × ℝ)} {N : Nat} (h : CoefOk coef N) : tri (N + 1) ≤ coef.length := by
  have e := tri_mul (N + 1)
  unfold CoefOk at h
  nlinarith

theorem cos_abs {φ : ℝ} (h : |φ| ≤ Real.pi / 2) : |Real.cos φ| = Real.cos φ := by
  rw [abs_le] at h
  exact abs_of_nonneg (Real.cos_nonneg_of_mem_Icc ⟨by linarith, h.2⟩)

section
variable {N : Nat} {int : Bool} {b : Mem ℝ} {a clat clon crad : ℝ} {coef : List (ℝ × ℝ)}

/-- The whole evaluation as the final evaluation with filled series. -/
theorem pointR_fill (hN : 1 ≤ N) (hb : MemOk b N) (hc : CoefOk coef N) (mode : Nat) :
    ∃ (leg : Out ℝ) (lcs : List (ℝ × ℝ)) (rrp : List ℝ) (L : Nat → ℝ × ℝ) (P D R : Nat → ℝ),
      Ok N coef lcs leg.lp leg.ldp rrp (coefC coef) L P D R ∧
      Filled N int (crad / a) (Real.sin clat) |Real.cos clat| clon L P D R ∧
      ∀ mode, pointR a N mode int b clat clon crad coef = eval Real.sin Real.cos Real.sqrt nearPole N mode
        clat crad coef lcs leg.lp leg.ldp rrp int := by
  obtain ⟨h1, h2⟩ := memOk_tri hb
  obtain ⟨leg, lcs, rrp, L, P, D, R, e1, e2, e3, o, f⟩ := fill nearPole nearPole_zero (10 ^ 280)
    (by positivity) N hN int b h1 h2 hb.lcs hb.rrp clat clon (crad / a) coef (coefOk_tri hc)
  refine ⟨leg, lcs, rrp, L, P, D, R, o, f, fun mode => ?_⟩
  unfold pointR point
  rw [e1, e2]
  simp only [Option.bind_eq_bind, Option.bind_some]
  cases int
  · simp only [Bool.false_eq_true, if_false] at e3 ⊢
    rw [e3]; rfl
  · simp only [if_true] at e3 ⊢
    rw [e3]; rfl

theorem evalV_potential (hlat : |clat| ≤ Real.pi / 2) (ha : a ≠ 0) (hr : crad ≠ 0)
    {L : Nat → ℝ × ℝ} {P D R : Nat → ℝ}
    (f : Filled N int (crad / a) (Real.sin clat) |Real.cos clat| clon L P D R) :
    vSum (coefC coef) L P R N * crad =
      potential int a N (coefG coef) (coefH coef) crad clat clon := by
  rw [f.vSum, potential_eq, cos_abs hlat, Finset.sum_mul]
  refine Finset.sum_congr rfl (fun n _ => ?_)
  rw [radf_eq int ha hr]
  have : ∀ m, schmidtP n m clat = Sf (Real.sin clat) (Real.cos clat) n m := fun m => schmidtP_eq n m clat
  simp only [this]
  ring

end

/-- **C23** (partial: from degree 1; latitudes from -90 to 90 degrees).  In the modes with
the potential the value is the spherical harmonic expansion.  Missing: degree 0, see
`C23_degree_zero_overflow`. -/
theorem C23_potential_partial (N : Nat) (hN : 1 ≤ N) (mode : Nat) (hm : mode % 4 = 1 ∨ mode % 4 = 3)
    (int : Bool) (b : Mem ℝ) (hb : MemOk b N) (a clat clon crad : ℝ) (ha : 0 < a) (hr : 0 < crad)
    (hlat : |clat| ≤ Real.pi / 2) (coef : List (ℝ × ℝ)) (hc : CoefOk coef N) :
    ∃ g, pointR a N mode int b clat clon crad coef =
      some (some (potential int a N (coefG coef) (coefH coef) crad clat clon), g) := by
  obtain ⟨leg, lcs, rrp, L, P, D, R, o, f, e⟩ := pointR_fill (int := int) (a := a) (clat := clat)
    (clon := clon) (crad := crad) hN hb hc mode
  have hv := evalV_potential (coef := coef) hlat ha.ne' hr.ne' f
  rw [e mode]
  unfold eval
  rcases hm with hm | hm
  · rw [hm]
    simp only [evalV_spec o, hv]
    exact ⟨_, rfl⟩
  · rw [hm]
    simp only [evalVDv_spec o, hv]
    unfold fixPole
    split
    · rw [dvazPole_spec o hN]; exact ⟨_, rfl⟩
    · exact ⟨_, rfl⟩

example : MemOk ⟨⟨List.replicate 6 7, List.replicate 6 7⟩, List.replicate 3 (0, 0), [1, 2, 3]⟩ 2 ∧
    CoefOk [(1, 0), (2, 0), (3, 4), (5, 0), (6, 7), (8, 9)] 2 := by
  constructor
  · constructor <;> simp
  · simp [CoefOk]

/-- **C23** fails for degree 0: the Legendre buffers of one item are overrun. -/
theorem C23_degree_zero_overflow (mode : Nat) (int : Bool) (b : Mem ℝ) (hb : MemOk b 0)
    (a clat clon crad : ℝ) (coef : List (ℝ × ℝ)) :
    pointR a 0 mode int b clat clon crad coef = none := by
  have h1 : b.leg.lp.length = 1 := (memOk_tri hb).1
  unfold pointR point
  simp [legendre, low, wrI, wr, h1]

example : MemOk ⟨⟨[1], [1]⟩, [(0, 0)], [1]⟩ 0 := by constructor <;> simp

/-- **C24** (partial: from degree 1, |cos(latitude)| at least 1e-10).  The components are
the gradient of the potential in spherical coordinates. -/
theorem C24_gradient_partial (N : Nat) (hN : 1 ≤ N) (mode : Nat) (hm : mode % 4 = 2 ∨ mode % 4 = 3)
    (int : Bool) (b : Mem ℝ) (hb : MemOk b N) (a clat clon crad : ℝ) (ha : 0 < a) (hr : 0 < crad)
    (hlat : |clat| ≤ Real.pi / 2) (hpole : 1 / 10 ^ 10 ≤ |Real.cos clat|)
    (coef : List (ℝ × ℝ)) (hc : CoefOk coef N) :
    ∃ v g, pointR a N mode int b clat clon crad coef = some (v, some g) ∧
      HasDerivAt (fun φ => potential int a N (coefG coef) (coefH coef) crad φ clon)
        (crad * g.el) clat ∧
      HasDerivAt (fun lon => potential int a N (coefG coef) (coefH coef) crad clat lon)
        (crad * Real.cos clat * g.az) clon ∧
      HasDerivAt (fun r => potential int a N (coefG coef) (coefH coef) r clat clon) g.rd crad := by
  obtain ⟨leg, lcs, rrp, L, P, D, R, o, f, e⟩ := pointR_fill (int := int) (a := a) (clat := clat)
    (clon := clon) (crad := crad) hN hb hc mode
  have hfix : ∀ g, fixPole Real.sin Real.cos Real.sqrt nearPole N clat coef lcs rrp g = some g := by
    intro g
    unfold fixPole
    rw [if_neg]
    rintro ⟨-, h⟩
    unfold nearPole at h
    simp only [decide_eq_true_eq] at h
    linarith
  have hcos : Real.cos clat ≠ 0 := by
    intro h; rw [h] at hpole; norm_num at hpole
  have key : ∃ v, pointR a N mode int b clat clon crad coef =
      some (v, some (grad0 (coefC coef) L P D R (Real.cos clat) int N)) := by
    rw [e mode]
    unfold eval
    rcases hm with hm | hm
    · rw [hm]
      simp only [evalDv_spec o, hfix]
      exact ⟨_, rfl⟩
    · rw [hm]
      simp only [evalVDv_spec o, hfix]
      exact ⟨_, rfl⟩
  obtain ⟨v, hv⟩ := key
  refine ⟨v, _, hv, ?_, ?_, ?_⟩
  · refine HasDerivAt.congr_deriv (potential_lat int a N _ _ crad clat clon) ?_
    show _ = crad * ShPoint.elSum (coefC coef) L D R N
    rw [f.elSum, cos_abs hlat, Finset.mul_sum]
    refine Finset.sum_congr rfl (fun n _ => ?_)
    rw [radf_eq int ha.ne' hr.ne']; ring
  · refine HasDerivAt.congr_deriv (potential_lon int a N _ _ crad clat clon) ?_
    show _ = crad * Real.cos clat * (ShPoint.azSum (coefC coef) L P R N / Real.cos clat)
    rw [f.azSum, cos_abs hlat, mul_assoc, mul_div_cancel₀ _ hcos, mul_neg, Finset.mul_sum]
    congr 1
    refine Finset.sum_congr rfl (fun n _ => ?_)
    rw [radf_eq int ha.ne' hr.ne']
    have : ∀ m, schmidtP n m clat = Sf (Real.sin clat) (Real.cos clat) n m := fun m => schmidtP_eq n m clat
    simp only [this]
    ring
  · refine HasDerivAt.congr_deriv (potential_rad int N _ _ clat clon ha.ne' hr.ne') ?_
    show _ = ShPoint.rdSum (coefC coef) L P R int N
    rw [f.rdSum, cos_abs hlat]
    refine Finset.sum_congr rfl (fun n _ => ?_)
    have : ∀ m, schmidtP n m clat = Sf (Real.sin clat) (Real.cos clat) n m := fun m => schmidtP_eq n m clat
    simp only [this]

/-- **C24**, the north and the radial components, at every latitude including the poles and
their neighbourhood. -/
theorem C24_north_radial (N : Nat) (hN : 1 ≤ N) (mode : Nat) (hm : mode % 4 = 2 ∨ mode % 4 = 3)
    (int : Bool) (b : Mem ℝ) (hb : MemOk b N) (a clat clon crad : ℝ) (ha : 0 < a) (hr : 0 < crad)
    (hlat : |clat| ≤ Real.pi / 2) (coef : List (ℝ × ℝ)) (hc : CoefOk coef N) :
    ∃ v g, pointR a N mode int b clat clon crad coef = some (v, some g) ∧
      HasDerivAt (fun φ => potential int a N (coefG coef) (coefH coef) crad φ clon)
        (crad * g.el) clat ∧
      HasDerivAt (fun r => potential int a N (coefG coef) (coefH coef) r clat clon) g.rd crad := by
  obtain ⟨leg, lcs, rrp, L, P, D, R, o, f, e⟩ := pointR_fill (int := int) (a := a) (clat := clat)
    (clon := clon) (crad := crad) hN hb hc mode
  have hfix : ∀ g, ∃ az, fixPole Real.sin Real.cos Real.sqrt nearPole N clat coef lcs rrp g =
      some { g with az := az } := by
    intro g
    unfold fixPole
    split
    · rw [dvazPole_spec o hN]; exact ⟨_, rfl⟩
    · exact ⟨g.az, rfl⟩
  obtain ⟨az, haz⟩ := hfix (grad0 (coefC coef) L P D R (Real.cos clat) int N)
  have key : ∃ v, pointR a N mode int b clat clon crad coef =
      some (v, some { grad0 (coefC coef) L P D R (Real.cos clat) int N with az := az }) := by
    rw [e mode]
    unfold eval
    rcases hm with hm | hm
    · rw [hm]
      simp only [evalDv_spec o, haz]
      exact ⟨_, rfl⟩
    · rw [hm]
      simp only [evalVDv_spec o, haz]
      exact ⟨_, rfl⟩
  obtain ⟨v, hv⟩ := key
  refine ⟨v, _, hv, ?_, ?_⟩
  · refine HasDerivAt.congr_deriv (potential_lat int a N _ _ crad clat clon) ?_
    show _ = crad * ShPoint.elSum (coefC coef) L D R N
    rw [f.elSum, cos_abs hlat, Finset.mul_sum]
    refine Finset.sum_congr rfl (fun n _ => ?_)
    rw [radf_eq int ha.ne' hr.ne']; ring
  · refine HasDerivAt.congr_deriv (potential_rad int N _ _ clat clon ha.ne' hr.ne') ?_
    show _ = ShPoint.rdSum (coefC coef) L P R int N
    rw [f.rdSum, cos_abs hlat]
    refine Finset.sum_congr rfl (fun n _ => ?_)
    have : ∀ m, schmidtP n m clat = Sf (Real.sin clat) (Real.cos clat) n m := fun m => schmidtP_eq n m clat
    simp only [this]

example : |(0 : ℝ)| ≤ Real.pi / 2 ∧ 1 / 10 ^ 10 ≤ |Real.cos 0| := by
  constructor
  · simp; positivity
  · simp; norm_num

/-- **C24**, the combined mode returns the values of the separate modes, at the poles
included. -/
theorem C24_modes (N : Nat) (hN : 1 ≤ N) (int : Bool) (b : Mem ℝ) (hb : MemOk b N)
    (a clat clon crad : ℝ) (coef : List (ℝ × ℝ)) (hc : CoefOk coef N) :
    ∃ v g, pointR a N 1 int b clat clon crad coef = some (some v, none) ∧
      pointR a N 2 int b clat clon crad coef = some (none, some g) ∧
      pointR a N 3 int b clat clon crad coef = some (some v, some g) := by
  obtain ⟨leg, lcs, rrp, L, P, D, R, o, f, e⟩ := pointR_fill (int := int) (a := a) (clat := clat)
    (clon := clon) (crad := crad) hN hb hc 1
  have key : ∃ g, fixPole Real.sin Real.cos Real.sqrt nearPole N clat coef lcs rrp
      (grad0 (coefC coef) L P D R (Real.cos clat) int N) = some g := by
    unfold fixPole
    split
    · rw [dvazPole_spec o hN]; exact ⟨_, rfl⟩
    · exact ⟨_, rfl⟩
  obtain ⟨g, hg⟩ := key
  refine ⟨ShPoint.vSum (coefC coef) L P R N * crad, g, ?_, ?_, ?_⟩
  · rw [e 1]; unfold eval; simp only [evalV_spec o]; rfl
  · rw [e 2]; unfold eval; simp only [evalDv_spec o, hg]; rfl
  · rw [e 3]; unfold eval; simp only [evalVDv_spec o, hg]; rfl

/-- Azimuth component off the poles, continued to the poles. -/
noncomputable def azCont (int : Bool) (x : ℝ) (N : Nat) (coef : List (ℝ × ℝ)) (lon φ : ℝ) : ℝ :=
  -∑ n ∈ Finset.range (N + 1), rpow int x n * ∑ m ∈ Finset.range (n + 1),
    (coefG coef n m * Real.sin (m * lon) - coefH coef n m * Real.cos (m * lon)) *
      (Real.cos φ ^ (m - 1) * (Verif.Spec.sq n m).eval (Real.sin φ)) * m

theorem azCont_continuous (int : Bool) (x : ℝ) (N : Nat) (coef : List (ℝ × ℝ)) (lon : ℝ) :
    Continuous (azCont int x N coef lon) := by
  unfold azCont
  refine Continuous.neg (continuous_finsetSum _ (fun n _ => Continuous.mul continuous_const
    (continuous_finsetSum _ (fun m _ => ?_))))
  exact (continuous_const.mul ((Real.continuous_cos.pow _).mul
    ((Polynomial.continuous _).comp Real.continuous_sin))).mul continuous_const

theorem azCont_off (int : Bool) {a r : ℝ} (ha : a ≠ 0) (hr : r ≠ 0) (N : Nat) (coef : List (ℝ × ℝ))
    (lon φ : ℝ) (hφ : Real.cos φ ≠ 0) :
    deriv (fun lon => potential int a N (coefG coef) (coefH coef) r φ lon) lon / (r * Real.cos φ) =
      azCont int (r / a) N coef lon φ := by
  rw [(potential_lon int a N (coefG coef) (coefH coef) r φ lon).deriv]
  unfold azCont
  rw [div_eq_iff (mul_ne_zero hr hφ), neg_mul, Finset.sum_mul]
  congr 1
  refine Finset.sum_congr rfl (fun n _ => ?_)
  rw [radf_eq int ha hr, mul_assoc, mul_assoc, ← mul_assoc _ r, mul_comm _ r, mul_assoc r,
    mul_left_comm r]
  congr 1
  rw [Finset.mul_sum, Finset.sum_mul]
  refine Finset.sum_congr rfl (fun m _ => ?_)
  rw [schmidtP_eq, Sf_eq]
  rcases m with _ | m
  · simp
  · rw [show m + 1 - 1 = m from rfl, pow_succ]; ring

theorem azCont_pole (int : Bool) (x : ℝ) (N : Nat) (coef : List (ℝ × ℝ)) (lon φ : ℝ)
    (hφ : Real.cos φ = 0) : azCont int x N coef lon φ = -∑ i ∈ Finset.range N,
      (coefG coef (i + 1) 1 * Real.sin lon - coefH coef (i + 1) 1 * Real.cos lon) * rpow int x (i + 1) *
        (Verif.Spec.sq (i + 1) 1).eval (Real.sin φ) := by
  unfold azCont
  rw [Finset.sum_range_succ']
  simp only [hφ]
  congr 1
  rw [Finset.sum_range_one]
  simp only [Nat.cast_zero, mul_zero, add_zero]
  refine Finset.sum_congr rfl (fun i _ => ?_)
  rw [Finset.sum_eq_single 1]
  · simp; ring
  · intro m _ hm
    rcases m with _ | m
    · simp
    · rw [show m + 1 - 1 = m from rfl, zero_pow (by omega)]; simp
  · intro h; exact absurd (Finset.mem_range.mpr (by omega)) h

/-- Value at the poles. -/
theorem pointR_pole (N : Nat) (hN : 1 ≤ N) (mode : Nat) (hm : mode % 4 = 2 ∨ mode % 4 = 3)
    (int : Bool) (b : Mem ℝ) (hb : MemOk b N) (a clat clon crad : ℝ)
    (hpole : |Real.cos clat| < 1 / 10 ^ 10) (coef : List (ℝ × ℝ)) (hc : CoefOk coef N) :
    ∃ v g, pointR a N mode int b clat clon crad coef = some (v, some g) ∧
      g.az = -∑ i ∈ Finset.range N,
      (coefG coef (i + 1) 1 * Real.sin clon - coefH coef (i + 1) 1 * Real.cos clon) *
        rpow int (crad / a) (i + 1) * (Verif.Spec.sq (i + 1) 1).eval (Real.sin clat) := by
  obtain ⟨leg, lcs, rrp, L, P, D, R, o, f, e⟩ := pointR_fill (int := int) (a := a) (clat := clat)
    (clon := clon) (crad := crad) hN hb hc mode
  have hsm : nearPole (Real.cos clat) = true := by
    unfold nearPole; simp only [decide_eq_true_eq]; exact hpole
  have hfix : ∀ g, fixPole Real.sin Real.cos Real.sqrt nearPole N clat coef lcs rrp g =
      some { g with az := -∑ i ∈ Finset.range N, ShPoint.cb (coefC coef) L (i + 1) 1 * R (i + 1) *
        (Verif.Spec.sq (i + 1) 1).eval (Real.sin clat) } := by
    intro g
    unfold fixPole
    rw [if_pos ⟨by omega, hsm⟩, dvazPole_spec o hN]; rfl
  have hsum : (-∑ i ∈ Finset.range N, ShPoint.cb (coefC coef) L (i + 1) 1 * R (i + 1) *
        (Verif.Spec.sq (i + 1) 1).eval (Real.sin clat)) = -∑ i ∈ Finset.range N,
      (coefG coef (i + 1) 1 * Real.sin clon - coefH coef (i + 1) 1 * Real.cos clon) *
        rpow int (crad / a) (i + 1) * (Verif.Spec.sq (i + 1) 1).eval (Real.sin clat) := by
    congr 1
    refine Finset.sum_congr rfl (fun i hi => ?_)
    rw [Finset.mem_range] at hi
    rw [f.cb coef hN, f.hR (i + 1) (by omega)]
    simp
  rw [e mode]
  unfold eval
  rcases hm with hm | hm
  · rw [hm]
    simp only [evalDv_spec o, hfix]
    exact ⟨_, _, rfl, hsum⟩
  · rw [hm]
    simp only [evalVDv_spec o, hfix]
    exact ⟨_, _, rfl, hsum⟩

theorem sq_diag_pos (x : ℝ) : 0 < (Verif.Spec.sq 2 2).eval x := by
  unfold Verif.Spec.sq
  rw [dP_self]
  simp only [Polynomial.eval_mul, Polynomial.eval_C]
  exact mul_pos (schmidtNorm_pos 2 2) (df_pos 2)

/-- **C24** fails next to the poles (0 < |cos(latitude)| < 1e-10): the orders above 1 are
left out of the azimuth component. -/
theorem C24_near_pole (b : Mem ℝ) (hb : MemOk b 2) (a clat crad : ℝ) (ha : 0 < a) (hr : 0 < crad)
    (h0 : Real.cos clat ≠ 0) (h1 : |Real.cos clat| < 1 / 10 ^ 10) :
    ∃ v g, pointR a 2 2 true b clat (Real.pi / 4) crad
        [(0, 0), (0, 0), (0, 0), (0, 0), (0, 0), (1, 0)] = some (v, some g) ∧ g.az = 0 ∧
      deriv (fun lon => potential true a 2
        (coefG [(0, 0), (0, 0), (0, 0), (0, 0), (0, 0), (1, 0)])
        (coefH [(0, 0), (0, 0), (0, 0), (0, 0), (0, 0), (1, 0)]) crad clat lon) (Real.pi / 4) ≠ 0 := by
  obtain ⟨v, g, e, h⟩ := pointR_pole 2 (by norm_num) 2 (by norm_num) true b hb a clat (Real.pi / 4) crad h1
    [(0, 0), (0, 0), (0, 0), (0, 0), (0, 0), (1, 0)] (by simp [CoefOk])
  refine ⟨v, g, e, ?_, ?_⟩
  · rw [h]; simp [Finset.sum_range_succ, coefG, coefH]
  · intro hd
    have hz := azCont_off true ha.ne' hr.ne' 2 [(0, 0), (0, 0), (0, 0), (0, 0), (0, 0), (1, 0)]
      (Real.pi / 4) clat h0
    rw [hd, zero_div] at hz
    have hs : Real.sin (2 * (Real.pi / 4)) = 1 := by
      rw [show 2 * (Real.pi / 4) = Real.pi / 2 by ring, Real.sin_pi_div_two]
    have hq := (sq_diag_pos (Real.sin clat)).ne'
    simp [azCont, Finset.sum_range_succ, coefG, coefH, hs, h0, hq, rpow, ha.ne', hr.ne'] at hz

/-- Latitude meeting the hypotheses of `C24_near_pole`. -/
example : Real.cos (Real.arccos (1 / 10 ^ 11)) ≠ 0 ∧
    |Real.cos (Real.arccos (1 / 10 ^ 11))| < 1 / 10 ^ 10 := by
  rw [Real.cos_arccos (by norm_num) (by norm_num)]
  norm_num

/-- **C25**.  At the poles the azimuth component is the limit of the component
`1/(r cos φ) dV/dlon` along the meridian of the given longitude. -/
theorem C25_pole_limit (N : Nat) (hN : 1 ≤ N) (mode : Nat) (hm : mode % 4 = 2 ∨ mode % 4 = 3)
    (int : Bool) (b : Mem ℝ) (hb : MemOk b N) (a clon crad : ℝ) (ha : 0 < a) (hr : 0 < crad)
    (coef : List (ℝ × ℝ)) (hc : CoefOk coef N) :
    (∃ v g, pointR a N mode int b (Real.pi / 2) clon crad coef = some (v, some g) ∧
      Filter.Tendsto (fun φ =>
        deriv (fun lon => potential int a N (coefG coef) (coefH coef) crad φ lon) clon /
          (crad * Real.cos φ)) (nhdsWithin (Real.pi / 2) (Set.Iio (Real.pi / 2))) (nhds g.az)) ∧
    (∃ v g, pointR a N mode int b (-(Real.pi / 2)) clon crad coef = some (v, some g) ∧
      Filter.Tendsto (fun φ =>
        deriv (fun lon => potential int a N (coefG coef) (coefH coef) crad φ lon) clon /
          (crad * Real.cos φ)) (nhdsWithin (-(Real.pi / 2)) (Set.Ioi (-(Real.pi / 2)))) (nhds g.az)) := by
  have hp := Real.pi_pos
  have hoff : ∀ φ ∈ Set.Ioo (-(Real.pi / 2)) (Real.pi / 2),
      azCont int (crad / a) N coef clon φ =
        deriv (fun lon => potential int a N (coefG coef) (coefH coef) crad φ lon) clon /
          (crad * Real.cos φ) := fun φ hφ =>
    (azCont_off int ha.ne' hr.ne' N coef clon φ (Real.cos_pos_of_mem_Ioo hφ).ne').symm
  constructor
  · obtain ⟨v, g, e, h⟩ := pointR_pole N hN mode hm int b hb a (Real.pi / 2) clon crad
      (by rw [Real.cos_pi_div_two]; norm_num) coef hc
    refine ⟨v, g, e, ?_⟩
    rw [h, ← azCont_pole int (crad / a) N coef clon _ Real.cos_pi_div_two]
    refine Filter.Tendsto.congr' ?_ ((azCont_continuous int (crad / a) N coef clon).continuousAt.tendsto.mono_left
      nhdsWithin_le_nhds)
    filter_upwards [Ioo_mem_nhdsLT (show -(Real.pi / 2) < Real.pi / 2 by linarith)] with φ hφ
    exact hoff φ hφ
  · have hcz : Real.cos (-(Real.pi / 2)) = 0 := by rw [Real.cos_neg, Real.cos_pi_div_two]
    obtain ⟨v, g, e, h⟩ := pointR_pole N hN mode hm int b hb a (-(Real.pi / 2)) clon crad
      (by rw [hcz]; norm_num) coef hc
    refine ⟨v, g, e, ?_⟩
    rw [h, ← azCont_pole int (crad / a) N coef clon _ hcz]
    refine Filter.Tendsto.congr' ?_ ((azCont_continuous int (crad / a) N coef clon).continuousAt.tendsto.mono_left
      nhdsWithin_le_nhds)
    filter_upwards [Ioo_mem_nhdsGT (show -(Real.pi / 2) < Real.pi / 2 by linarith)] with φ hφ
    exact hoff φ hφ

/-- Linear combination of two coefficient tables. -/
def lin (α β : ℝ) (c₁ c₂ : List (ℝ × ℝ)) : List (ℝ × ℝ) :=
  List.zipWith (fun u v => (α * u.1 + β * v.1, α * u.2 + β * v.2)) c₁ c₂

/-- Linear combination of the outputs. -/
def linOut (α β : ℝ) (o₁ o₂ : Option ℝ × Option (Grad ℝ)) : Option ℝ × Option (Grad ℝ) :=
  (do return α * (← o₁.1) + β * (← o₂.1),
   do
    let u ← o₁.2
    let v ← o₂.2
    return ⟨α * u.el + β * v.el, α * u.az + β * v.az, α * u.rd + β * v.rd⟩)

theorem coefC_lin (α β : ℝ) (c₁ c₂ : List (ℝ × ℝ)) (h : c₁.length = c₂.length) (k : Nat) :
    coefC (lin α β c₁ c₂) k = (α * (coefC c₁ k).1 + β * (coefC c₂ k).1,
      α * (coefC c₁ k).2 + β * (coefC c₂ k).2) := by
  unfold coefC lin
  rw [List.getElem?_zipWith]
  by_cases hk : k < c₁.length
  · rw [List.getElem?_eq_getElem hk, List.getElem?_eq_getElem (by omega)]; rfl
  · rw [List.getElem?_eq_none (by omega), List.getElem?_eq_none (by omega)]; simp

theorem lin_sum {α β : ℝ} {s : Finset Nat} {f g k : Nat → ℝ} (h : ∀ i, k i = α * f i + β * g i) :
    ∑ i ∈ s, k i = α * ∑ i ∈ s, f i + β * ∑ i ∈ s, g i := by
  rw [Finset.mul_sum, Finset.mul_sum, ← Finset.sum_add_distrib]
  exact Finset.sum_congr rfl (fun i _ => h i)

section lin
variable {α β : ℝ} {c₁ c₂ : List (ℝ × ℝ)} (h : c₁.length = c₂.length) (L : Nat → ℝ × ℝ) (P R : Nat → ℝ)
include h

theorem ca_lin (i j : Nat) : ShPoint.ca (coefC (lin α β c₁ c₂)) L i j =
    α * ShPoint.ca (coefC c₁) L i j + β * ShPoint.ca (coefC c₂) L i j := by
  unfold ShPoint.ca; rw [coefC_lin α β c₁ c₂ h]; ring

theorem cb_lin (i j : Nat) : ShPoint.cb (coefC (lin α β c₁ c₂)) L i j =
    α * ShPoint.cb (coefC c₁) L i j + β * ShPoint.cb (coefC c₂) L i j := by
  unfold ShPoint.cb; rw [coefC_lin α β c₁ c₂ h]; ring

theorem vI_lin (i : Nat) : vI (coefC (lin α β c₁ c₂)) L P i =
    α * vI (coefC c₁) L P i + β * vI (coefC c₂) L P i := by
  unfold vI
  rw [lin_sum (α := α) (β := β) (f := fun j => ShPoint.ca (coefC c₁) L i (j + 1) * P (tri i + (j + 1)))
    (g := fun j => ShPoint.ca (coefC c₂) L i (j + 1) * P (tri i + (j + 1)))
    (fun j => by rw [ca_lin h]; ring), coefC_lin α β c₁ c₂ h]
  ring

theorem aI_lin (i : Nat) : aI (coefC (lin α β c₁ c₂)) L P i =
    α * aI (coefC c₁) L P i + β * aI (coefC c₂) L P i := by
  unfold aI
  exact lin_sum (fun j => by rw [cb_lin h]; ring)

theorem vSum_lin (N : Nat) : ShPoint.vSum (coefC (lin α β c₁ c₂)) L P R N =
    α * ShPoint.vSum (coefC c₁) L P R N + β * ShPoint.vSum (coefC c₂) L P R N := by
  unfold ShPoint.vSum
  rw [lin_sum (α := α) (β := β) (f := fun i => R (i + 1) * vI (coefC c₁) L P (i + 1))
    (g := fun i => R (i + 1) * vI (coefC c₂) L P (i + 1)) (fun j => by rw [vI_lin h]; ring),
    coefC_lin α β c₁ c₂ h]
  ring

theorem elSum_lin (N : Nat) : ShPoint.elSum (coefC (lin α β c₁ c₂)) L P R N =
    α * ShPoint.elSum (coefC c₁) L P R N + β * ShPoint.elSum (coefC c₂) L P R N := by
  unfold ShPoint.elSum
  exact lin_sum (fun j => by rw [vI_lin h]; ring)

theorem azSum_lin (N : Nat) : ShPoint.azSum (coefC (lin α β c₁ c₂)) L P R N =
    α * ShPoint.azSum (coefC c₁) L P R N + β * ShPoint.azSum (coefC c₂) L P R N := by
  unfold ShPoint.azSum
  rw [lin_sum (α := α) (β := β) (f := fun i => R (i + 1) * aI (coefC c₁) L P (i + 1))
    (g := fun i => R (i + 1) * aI (coefC c₂) L P (i + 1)) (fun j => by rw [aI_lin h]; ring)]
  ring

theorem rdSum_lin (int : Bool) (N : Nat) : ShPoint.rdSum (coefC (lin α β c₁ c₂)) L P R int N =
    α * ShPoint.rdSum (coefC c₁) L P R int N + β * ShPoint.rdSum (coefC c₂) L P R int N := by
  unfold ShPoint.rdSum
  rw [lin_sum (α := α) (β := β) (f := fun i => R (i + 1) * (vI (coefC c₁) L P (i + 1) * idr int (i + 1)))
    (g := fun i => R (i + 1) * (vI (coefC c₂) L P (i + 1) * idr int (i + 1)))
    (fun j => by rw [vI_lin h]; ring), coefC_lin α β c₁ c₂ h]
  ring

end lin

/-- **C26**, linearity in the coefficients, in every mode, for internal and external
sources, at every position. -/
theorem C26_linear (N : Nat) (hN : 1 ≤ N) (mode : Nat) (int : Bool) (b : Mem ℝ) (hb : MemOk b N)
    (a clat clon crad α β : ℝ) (c₁ c₂ : List (ℝ × ℝ)) (hl : c₁.length = c₂.length)
    (h₁ : CoefOk c₁ N) :
    ∃ o₁ o₂, pointR a N mode int b clat clon crad c₁ = some o₁ ∧
      pointR a N mode int b clat clon crad c₂ = some o₂ ∧
      pointR a N mode int b clat clon crad (lin α β c₁ c₂) = some (linOut α β o₁ o₂) := by
  have h₂ : CoefOk c₂ N := by unfold CoefOk at h₁ ⊢; omega
  have h₃ : CoefOk (lin α β c₁ c₂) N := by
    unfold CoefOk lin at *; rw [List.length_zipWith]; omega
  obtain ⟨t1, t2⟩ := memOk_tri hb
  obtain ⟨leg, lcs, rrp, L, P, D, R, e1, e2, e3, o, f⟩ := fill nearPole nearPole_zero (10 ^ 280)
    (by positivity) N hN int b t1 t2 hb.lcs hb.rrp clat clon (crad / a) c₁ (coefOk_tri h₁)
  have o₂ : Ok N c₂ lcs leg.lp leg.ldp rrp (coefC c₂) L P D R :=
    ⟨holds_getD c₂ _ _ (fun k hk => by have := coefOk_tri h₂; omega), o.hl, o.hp, o.hd, o.hr⟩
  have o₃ : Ok N (lin α β c₁ c₂) lcs leg.lp leg.ldp rrp (coefC (lin α β c₁ c₂)) L P D R :=
    ⟨holds_getD _ _ _ (fun k hk => by have := coefOk_tri h₃; omega), o.hl, o.hp, o.hd, o.hr⟩
  have hp : ∀ coef, pointR a N mode int b clat clon crad coef = eval Real.sin Real.cos Real.sqrt nearPole N
      mode clat crad coef lcs leg.lp leg.ldp rrp int := by
    intro coef
    unfold pointR point
    rw [e1, e2]
    simp only [Option.bind_eq_bind, Option.bind_some]
    cases int
    · simp only [Bool.false_eq_true, if_false] at e3 ⊢
      rw [e3]; rfl
    · simp only [if_true] at e3 ⊢
      rw [e3]; rfl
  have hfix : ∃ g₁ g₂, fixPole Real.sin Real.cos Real.sqrt nearPole N clat c₁ lcs rrp
        (grad0 (coefC c₁) L P D R (Real.cos clat) int N) = some g₁ ∧
      fixPole Real.sin Real.cos Real.sqrt nearPole N clat c₂ lcs rrp
        (grad0 (coefC c₂) L P D R (Real.cos clat) int N) = some g₂ ∧
      fixPole Real.sin Real.cos Real.sqrt nearPole N clat (lin α β c₁ c₂) lcs rrp
        (grad0 (coefC (lin α β c₁ c₂)) L P D R (Real.cos clat) int N) =
          some ⟨α * g₁.el + β * g₂.el, α * g₁.az + β * g₂.az, α * g₁.rd + β * g₂.rd⟩ := by
    unfold fixPole
    by_cases hs : N > 0 ∧ nearPole (Real.cos clat) = true
    · rw [if_pos hs, if_pos hs, if_pos hs, dvazPole_spec o hN, dvazPole_spec o₂ hN, dvazPole_spec o₃ hN]
      refine ⟨_, _, rfl, rfl, ?_⟩
      show some _ = some _
      congr 1
      simp only [grad0, elSum_lin hl, rdSum_lin hl]
      congr 1
      rw [lin_sum (α := α) (β := β)
        (f := fun i => ShPoint.cb (coefC c₁) L (i + 1) 1 * R (i + 1) *
          (Verif.Spec.sq (i + 1) 1).eval (Real.sin clat))
        (g := fun i => ShPoint.cb (coefC c₂) L (i + 1) 1 * R (i + 1) *
          (Verif.Spec.sq (i + 1) 1).eval (Real.sin clat)) (fun i => by rw [cb_lin hl]; ring)]
      ring
    · rw [if_neg hs, if_neg hs, if_neg hs]
      refine ⟨_, _, rfl, rfl, ?_⟩
      simp only [grad0, elSum_lin hl, rdSum_lin hl, azSum_lin hl]
      congr 2
      ring
  obtain ⟨g₁, g₂, k₁, k₂, k₃⟩ := hfix
  rw [hp, hp, hp]
  unfold eval
  have hm : mode % 4 = 0 ∨ mode % 4 = 1 ∨ mode % 4 = 2 ∨ mode % 4 = 3 := by omega
  rcases hm with hm | hm | hm | hm <;> rw [hm]
  · exact ⟨_, _, rfl, rfl, rfl⟩
  · simp only [evalV_spec o, evalV_spec o₂, evalV_spec o₃]
    refine ⟨_, _, rfl, rfl, ?_⟩
    rw [vSum_lin hl]
    show some (some _, none) = some (some _, none)
    congr 3
    ring
  · simp only [evalDv_spec o, evalDv_spec o₂, evalDv_spec o₃, k₁, k₂, k₃]
    exact ⟨_, _, rfl, rfl, rfl⟩
  · simp only [evalVDv_spec o, evalVDv_spec o₂, evalVDv_spec o₃, k₁, k₂, k₃]
    refine ⟨_, _, rfl, rfl, ?_⟩
    rw [vSum_lin hl]
    show some (some _, some _) = some (some _, some _)
    congr 3
    ring

end Verif.Props
