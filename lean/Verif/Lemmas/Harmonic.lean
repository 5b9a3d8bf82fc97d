import Verif.Lemmas.ShPoint
import Verif.Spec.Harmonic
import Mathlib.Analysis.Calculus.Deriv.Inv
import Mathlib.Analysis.Calculus.Deriv.Pow
import Mathlib.Analysis.Calculus.Deriv.Add

set_option linter.unusedSectionVars false

namespace Verif.ShPoint

open Verif.Buf Verif.Legendre Verif.Spec

/-! ### The sums of the code as plain double sums -/

section sums
variable {C L : Nat → ℝ × ℝ} {P D R : Nat → ℝ}

theorem vI_eq (hL : L 0 = (1, 0)) (i : Nat) :
    vI C L P i = ∑ m ∈ Finset.range (i + 1), ca C L i m * P (tri i + m) := by
  rw [Finset.sum_range_succ', add_comm]
  unfold vI
  congr 1
  simp [ca, hL]

theorem aI_eq (i : Nat) :
    aI C L P i = ∑ m ∈ Finset.range (i + 1), cb C L i m * P (tri i + m) * (m : ℝ) := by
  rw [Finset.sum_range_succ']
  unfold aI
  simp

theorem vI_zero (hP : P 0 = 1) : vI C L P 0 = (C 0).1 := by simp [vI, tri, hP]

theorem vSum_eq (hP : P 0 = 1) (N : Nat) :
    vSum C L P R N = ∑ n ∈ Finset.range (N + 1), R n * vI C L P n := by
  rw [Finset.sum_range_succ', vI_zero hP, add_comm]
  unfold vSum
  congr 1
  ring

theorem elSum_eq (hD : D 0 = 0) (N : Nat) :
    elSum C L D R N = ∑ n ∈ Finset.range (N + 1), R n * vI C L D n := by
  rw [Finset.sum_range_succ']
  unfold elSum
  simp [vI, tri, hD]

theorem azSum_eq (N : Nat) :
    azSum C L P R N = -∑ n ∈ Finset.range (N + 1), R n * aI C L P n := by
  rw [Finset.sum_range_succ']
  unfold azSum
  simp [aI]

theorem rdSum_eq (hP : P 0 = 1) (int : Bool) (N : Nat) :
    rdSum C L P R int N = -∑ n ∈ Finset.range (N + 1), R n * (vI C L P n * idr int n) := by
  rw [Finset.sum_range_succ', vI_zero hP]
  unfold rdSum
  ring

end sums

/-! ### Radial functions -/

/-- The relative radius powers filled by the code. -/
noncomputable def rpow (int : Bool) (x : ℝ) (n : Nat) : ℝ :=
  if int then (1 / x) ^ (n + 2) else (if n = 0 then 1 / x else x ^ (n - 1))

/-- Radial function of the potential. -/
noncomputable def radf (int : Bool) (a : ℝ) (n : Nat) (r : ℝ) : ℝ :=
  if int then (a / r) ^ (n + 1) else (r / a) ^ n

theorem radf_eq (int : Bool) {a r : ℝ} (ha : a ≠ 0) (hr : r ≠ 0) (n : Nat) :
    a * radf int a n r = rpow int (r / a) n * r := by
  unfold radf rpow
  cases int
  · simp only [Bool.false_eq_true, if_false]
    rcases n with _ | n
    · simp; field_simp
    · rw [if_neg (by omega), show n + 1 - 1 = n from rfl, pow_succ]; field_simp
  · simp only [if_true]
    rw [show (1 / (r / a)) = a / r by field_simp, pow_succ _ (n + 1)]; field_simp

theorem radf_deriv (int : Bool) {a r : ℝ} (ha : a ≠ 0) (hr : r ≠ 0) (n : Nat) :
    HasDerivAt (fun r => a * radf int a n r) (-(rpow int (r / a) n * idr int n)) r := by
  unfold radf rpow idr
  cases int
  · simp only [Bool.false_eq_true, if_false]
    have h1 : HasDerivAt (fun r : ℝ => r / a) (1 / a) r := (hasDerivAt_id r).div_const a
    have h2 := (h1.pow n).const_mul a
    refine HasDerivAt.congr_deriv h2 ?_
    rcases n with _ | n
    · simp
    · rw [if_neg (by omega), show n + 1 - 1 = n from rfl]; push_cast; field_simp; ring
  · simp only [if_true]
    have h1 : HasDerivAt (fun r : ℝ => a / r) (-a / r ^ 2) r := by
      simpa [div_eq_mul_inv, mul_comm] using (hasDerivAt_inv hr).const_mul a
    have h2 := (h1.pow (n + 1)).const_mul a
    refine HasDerivAt.congr_deriv h2 ?_
    rw [show (1 / (r / a)) = a / r by field_simp, show n + 1 - 1 = n from rfl, pow_add]
    push_cast
    field_simp

/-! ### The potential and its derivatives -/

variable (int : Bool) (a : ℝ) (N : Nat) (g h : Nat → Nat → ℝ) (r φ lon : ℝ)

theorem potential_eq : potential int a N g h r φ lon = ∑ n ∈ Finset.range (N + 1), a * radf int a n r *
    ∑ m ∈ Finset.range (n + 1), (g n m * Real.cos (m * lon) + h n m * Real.sin (m * lon)) * schmidtP n m φ := by
  unfold potential radf
  rw [Finset.mul_sum]
  exact Finset.sum_congr rfl (fun n _ => by ring)

theorem potential_rad {a r : ℝ} (ha : a ≠ 0) (hr : r ≠ 0) :
    HasDerivAt (fun r => potential int a N g h r φ lon) (∑ n ∈ Finset.range (N + 1),
      -(rpow int (r / a) n * idr int n) * ∑ m ∈ Finset.range (n + 1),
        (g n m * Real.cos (m * lon) + h n m * Real.sin (m * lon)) * schmidtP n m φ) r := by
  simp only [potential_eq]
  exact HasDerivAt.fun_sum (fun n _ => (radf_deriv int ha hr n).mul_const _)

theorem potential_lat : HasDerivAt (fun φ => potential int a N g h r φ lon)
    (∑ n ∈ Finset.range (N + 1), a * radf int a n r * ∑ m ∈ Finset.range (n + 1),
      (g n m * Real.cos (m * lon) + h n m * Real.sin (m * lon)) *
        Sd (Real.sin φ) (Real.cos φ) n m) φ := by
  simp only [potential_eq]
  exact HasDerivAt.fun_sum (fun n _ => (HasDerivAt.fun_sum
    (fun m _ => (hasDerivAt_schmidtP n m φ).const_mul _)).const_mul _)

theorem potential_lon : HasDerivAt (fun lon => potential int a N g h r φ lon)
    (-∑ n ∈ Finset.range (N + 1), a * radf int a n r * ∑ m ∈ Finset.range (n + 1),
      (g n m * Real.sin (m * lon) - h n m * Real.cos (m * lon)) * schmidtP n m φ * (m : ℝ)) lon := by
  simp only [potential_eq]
  rw [← Finset.sum_neg_distrib]
  refine HasDerivAt.fun_sum (fun n _ => ?_)
  rw [← mul_neg, ← Finset.sum_neg_distrib]
  refine (HasDerivAt.fun_sum (fun m _ => ?_)).const_mul _
  have hl : HasDerivAt (fun x : ℝ => (m : ℝ) * x) (m : ℝ) lon := by
    simpa using (hasDerivAt_id lon).const_mul (m : ℝ)
  have h1 : HasDerivAt (fun x : ℝ => Real.cos (m * x)) (-Real.sin (m * lon) * m) lon :=
    (Real.hasDerivAt_cos (m * lon)).comp lon hl
  have h2 : HasDerivAt (fun x : ℝ => Real.sin (m * x)) (Real.cos (m * lon) * m) lon :=
    (Real.hasDerivAt_sin (m * lon)).comp lon hl
  have h3 := ((h1.const_mul (g n m)).add (h2.const_mul (h n m))).mul_const (schmidtP n m φ)
  refine HasDerivAt.congr_deriv h3 ?_
  ring

/-! ### Evaluation with the filled buffers -/

theorem holds_getD {A : Type} (b : List A) (D : Nat → Prop) (d : A) (h : ∀ k, D k → k < b.length) :
    Holds b D (fun k => (b[k]?).getD d) := by
  intro k hk
  have := h k hk
  refine ⟨this, ?_⟩
  simp [List.getElem?_eq_getElem this]

/-- Contents of the buffers after the three series were filled for a point. -/
structure Filled (N : Nat) (int : Bool) (x s c lon : ℝ) (L : Nat → ℝ × ℝ) (P D R : Nat → ℝ) : Prop where
  hL : ∀ m, m ≤ N → L m = Verif.Fourier.cis (m * lon)
  hP : ∀ n m, m ≤ n → n ≤ N → P (tri n + m) = Sf s c n m
  hD : ∀ n m, m ≤ n → n ≤ N → D (tri n + m) = Sd s c n m
  hR : ∀ n, n ≤ N → R n = rpow int x n

variable {int N} {x s c : ℝ} {L : Nat → ℝ × ℝ} {P D R : Nat → ℝ} {lon}

theorem Filled.zero (f : Filled N int x s c lon L P D R) : L 0 = (1, 0) ∧ P 0 = 1 ∧ D 0 = 0 := by
  refine ⟨?_, ?_, ?_⟩
  · rw [f.hL 0 (Nat.zero_le _)]; simp [Verif.Fourier.cis]
  · have := f.hP 0 0 (le_refl _) (Nat.zero_le _)
    rw [Sf_eq, sq_zero] at this; simpa [tri] using this
  · have := f.hD 0 0 (le_refl _) (Nat.zero_le _)
    rw [Sd_eq, sq_gq, gq_self] at this; simpa [tri] using this

/-- Coefficient function of a flat table. -/
def coefC (coef : List (ℝ × ℝ)) (k : Nat) : ℝ × ℝ := (coef[k]?).getD (0, 0)

theorem Filled.ca (f : Filled N int x s c lon L P D R) (coef : List (ℝ × ℝ)) {n m : Nat} (hm : m ≤ N) :
    ca (coefC coef) L n m =
      coefG coef n m * Real.cos (m * lon) + coefH coef n m * Real.sin (m * lon) := by
  unfold ShPoint.ca coefG coefH coefC
  rw [tri_half, f.hL m hm]; rfl

theorem Filled.cb (f : Filled N int x s c lon L P D R) (coef : List (ℝ × ℝ)) {n m : Nat} (hm : m ≤ N) :
    cb (coefC coef) L n m =
      coefG coef n m * Real.sin (m * lon) - coefH coef n m * Real.cos (m * lon) := by
  unfold ShPoint.cb coefG coefH coefC
  rw [tri_half, f.hL m hm]; rfl

theorem Filled.vSum (f : Filled N int x s c lon L P D R) (coef : List (ℝ × ℝ)) :
    vSum (coefC coef) L P R N = ∑ n ∈ Finset.range (N + 1), rpow int x n * ∑ m ∈ Finset.range (n + 1),
      (coefG coef n m * Real.cos (m * lon) + coefH coef n m * Real.sin (m * lon)) * Sf s c n m := by
  rw [vSum_eq f.zero.2.1]
  refine Finset.sum_congr rfl (fun n hn => ?_)
  rw [Finset.mem_range] at hn
  rw [f.hR n (by omega), vI_eq f.zero.1]
  congr 1
  refine Finset.sum_congr rfl (fun m hm => ?_)
  rw [Finset.mem_range] at hm
  rw [f.ca coef (by omega), f.hP n m (by omega) (by omega)]

theorem Filled.elSum (f : Filled N int x s c lon L P D R) (coef : List (ℝ × ℝ)) :
    elSum (coefC coef) L D R N = ∑ n ∈ Finset.range (N + 1), rpow int x n * ∑ m ∈ Finset.range (n + 1),
      (coefG coef n m * Real.cos (m * lon) + coefH coef n m * Real.sin (m * lon)) * Sd s c n m := by
  rw [elSum_eq f.zero.2.2]
  refine Finset.sum_congr rfl (fun n hn => ?_)
  rw [Finset.mem_range] at hn
  rw [f.hR n (by omega), vI_eq f.zero.1]
  congr 1
  refine Finset.sum_congr rfl (fun m hm => ?_)
  rw [Finset.mem_range] at hm
  rw [f.ca coef (by omega), f.hD n m (by omega) (by omega)]

theorem Filled.azSum (f : Filled N int x s c lon L P D R) (coef : List (ℝ × ℝ)) :
    azSum (coefC coef) L P R N = -∑ n ∈ Finset.range (N + 1), rpow int x n * ∑ m ∈ Finset.range (n + 1),
      (coefG coef n m * Real.sin (m * lon) - coefH coef n m * Real.cos (m * lon)) * Sf s c n m * m := by
  rw [azSum_eq]
  congr 1
  refine Finset.sum_congr rfl (fun n hn => ?_)
  rw [Finset.mem_range] at hn
  rw [f.hR n (by omega), aI_eq]
  congr 1
  refine Finset.sum_congr rfl (fun m hm => ?_)
  rw [Finset.mem_range] at hm
  rw [f.cb coef (by omega), f.hP n m (by omega) (by omega)]

theorem Filled.rdSum (f : Filled N int x s c lon L P D R) (coef : List (ℝ × ℝ)) :
    rdSum (coefC coef) L P R int N = ∑ n ∈ Finset.range (N + 1), -(rpow int x n * idr int n) *
      ∑ m ∈ Finset.range (n + 1),
      (coefG coef n m * Real.cos (m * lon) + coefH coef n m * Real.sin (m * lon)) * Sf s c n m := by
  rw [rdSum_eq f.zero.2.1, ← Finset.sum_neg_distrib]
  refine Finset.sum_congr rfl (fun n hn => ?_)
  rw [Finset.mem_range] at hn
  rw [f.hR n (by omega), vI_eq f.zero.1]
  have : ∑ m ∈ Finset.range (n + 1), ShPoint.ca (coefC coef) L n m * P (tri n + m) =
      ∑ m ∈ Finset.range (n + 1),
      (coefG coef n m * Real.cos (m * lon) + coefH coef n m * Real.sin (m * lon)) * Sf s c n m := by
    refine Finset.sum_congr rfl (fun m hm => ?_)
    rw [Finset.mem_range] at hm
    rw [f.ca coef (by omega), f.hP n m (by omega) (by omega)]
  rw [this]; ring

/-- The series are filled as specified, whatever was in the memory. -/
theorem fill (small : ℝ → Bool) (h0 : small 0 = true) (scale : ℝ) (hs : scale ≠ 0) (N : Nat)
    (hN : 1 ≤ N) (int : Bool) (b : Mem ℝ) (hb1 : b.leg.lp.length = tri (N + 1))
    (hb2 : b.leg.ldp.length = tri (N + 1)) (hb3 : b.lcs.length = N + 1) (hb4 : b.rrp.length = N + 1)
    (clat clon x : ℝ) (coef : List (ℝ × ℝ)) (hc : tri (N + 1) ≤ coef.length) :
    ∃ leg lcs rrp L P D R,
      Legendre.legendre Real.sin Real.sqrt small scale b.leg N clat = some leg ∧
      Fourier.fsCosSin Real.cos Real.sin b.lcs N clon = some lcs ∧
      (if int then RadPow.internal else RadPow.external) b.rrp N x = some rrp ∧
      Ok N coef lcs leg.lp leg.ldp rrp (coefC coef) L P D R ∧
      Filled N int x (Real.sin clat) |Real.cos clat| clon L P D R := by
  obtain ⟨leg, e1, t⟩ := legendre_spec small h0 scale hs b.leg N hN hb1 hb2 clat
  obtain ⟨lcs, e2, l2, t2⟩ := Verif.Fourier.fsCosSin_spec b.lcs N clon (by omega)
  have e3 : ∃ rrp, (if int then RadPow.internal else RadPow.external) b.rrp N x = some rrp ∧
      rrp.length = N + 1 ∧ Holds rrp (fun j => j ≤ N) (rpow int x) := by
    cases int
    · obtain ⟨rrp, e, l, t⟩ := RadPow.external_spec b.rrp N x (by omega)
      exact ⟨rrp, e, by omega, t⟩
    · obtain ⟨rrp, e, l, t⟩ := RadPow.internal_spec b.rrp N x (by omega)
      exact ⟨rrp, e, by omega, t⟩
  obtain ⟨rrp, e3, l3, t3⟩ := e3
  refine ⟨leg, lcs, rrp, fun m => Verif.Fourier.cis (m * clon), fun k => (leg.lp[k]?).getD 0,
    fun k => (leg.ldp[k]?).getD 0, rpow int x, e1, e2, e3, ⟨?_, t2, ?_, ?_, t3⟩, ⟨fun _ _ => rfl, ?_, ?_,
      fun _ _ => rfl⟩⟩
  · exact holds_getD coef _ _ (fun k hk => by omega)
  · exact holds_getD leg.lp _ _ (fun k hk => by rw [t.1]; exact hk)
  · exact holds_getD leg.ldp _ _ (fun k hk => by rw [t.2.1]; exact hk)
  · intro n m hm hn
    show (leg.lp[tri n + m]?).getD 0 = _
    rw [(t.2.2 n m hm hn trivial).1]; rfl
  · intro n m hm hn
    show (leg.ldp[tri n + m]?).getD 0 = _
    rw [(t.2.2 n m hm hn trivial).2]; rfl

end Verif.ShPoint
