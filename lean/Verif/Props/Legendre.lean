/-
Properties C19, C20: associated Legendre functions and their derivatives.
-/
import Verif.Lemmas.LegendreSpec

set_option linter.unusedSectionVars false

namespace Verif.Props

open Verif.Legendre Verif.Spec Verif.Buf

/-- The test `fabs(cos_elv) < 1e-10` with real numbers. -/
noncomputable def nearPole (c : ℝ) : Bool := by
  classical exact decide (|c| < 1 / 10 ^ 10)

/-- The Python function with real numbers and the libm functions of the reals;
`SHC_LEG_HIGH_SCALE` is 1e280. -/
noncomputable def legendreR (o : Out ℝ) (lat : ℝ) (degree : Int) : Option (Option (Out ℝ)) :=
  legendrePy Real.sin Real.sqrt nearPole (10 ^ 280) (Real.pi / 180) o lat degree

/-- Freshly allocated output arrays of the right size, with any content. -/
def Alloc (o : Out ℝ) (degree : Int) : Prop :=
  (o.lp.length : Int) * 2 = (degree + 1) * (degree + 2) ∧
  (o.ldp.length : Int) * 2 = (degree + 1) * (degree + 2)

theorem nearPole_zero : nearPole 0 = true := by
  unfold nearPole; simp

theorem alloc_tri {o : Out ℝ} {N : Nat} (h : Alloc o N) :
    o.lp.length = tri (N + 1) ∧ o.ldp.length = tri (N + 1) := by
  obtain ⟨h1, h2⟩ := h
  have e := tri_mul (N + 1)
  have a : o.lp.length * 2 = (N + 1) * (N + 2) := by exact_mod_cast h1
  have b : o.ldp.length * 2 = (N + 1) * (N + 2) := by exact_mod_cast h2
  constructor <;> nlinarith

theorem legendreR_spec (o : Out ℝ) (lat : ℝ) (degree : Int) (hd : 1 ≤ degree) (ho : Alloc o degree) :
    ∃ o', legendreR o lat degree = some (some o') ∧ Alloc o' degree ∧
      ∀ n m : Nat, m ≤ n → (n : Int) ≤ degree →
        o'.lp[n * (n + 1) / 2 + m]? =
          some (Sf (Real.sin (lat * (Real.pi / 180))) |Real.cos (lat * (Real.pi / 180))| n m) ∧
        o'.ldp[n * (n + 1) / 2 + m]? =
          some (Sd (Real.sin (lat * (Real.pi / 180))) |Real.cos (lat * (Real.pi / 180))| n m) := by
  obtain ⟨N, rfl⟩ : ∃ N : Nat, degree = N := ⟨degree.toNat, by omega⟩
  obtain ⟨l1, l2⟩ := alloc_tri ho
  obtain ⟨o', e, h⟩ := legendre_spec nearPole nearPole_zero (10 ^ 280) (by positivity) o N (by omega)
    l1 l2 (lat * (Real.pi / 180))
  refine ⟨o', ?_, ⟨?_, ?_⟩, ?_⟩
  · unfold legendreR legendrePy
    rw [if_neg (by omega), Int.toNat_natCast, e]
  · rw [h.1, ← l1]; exact ho.1
  · rw [h.2.1, ← l1]; exact ho.1
  · intro n m hm hn
    rw [tri_half]
    exact h.2.2 n m hm (by omega) trivial

theorem cos_lat_nonneg {lat : ℝ} (h : |lat| ≤ 90) : 0 ≤ Real.cos (lat * (Real.pi / 180)) := by
  have hp := Real.pi_pos
  rw [abs_le] at h
  apply Real.cos_nonneg_of_mem_Icc
  constructor <;> nlinarith

/-- **C19** (partial: from degree 1 and latitudes from -90 to 90).  Each returned value is
the Schmidt semi-normalised associated Legendre function of Rodrigues' formula, whatever the
content of the allocated arrays was.  Missing: degree 0, see `C19_degree_zero_overflow`. -/
theorem C19_legendre_partial (o : Out ℝ) (lat : ℝ) (degree : Int) (hd : 1 ≤ degree)
    (ho : Alloc o degree) (hlat : |lat| ≤ 90) :
    ∃ o', legendreR o lat degree = some (some o') ∧ Alloc o' degree ∧
      ∀ n m : Nat, m ≤ n → (n : Int) ≤ degree →
        o'.lp[n * (n + 1) / 2 + m]? = some (schmidtP n m (lat * (Real.pi / 180))) := by
  obtain ⟨o', e, ha, h⟩ := legendreR_spec o lat degree hd ho
  refine ⟨o', e, ha, fun n m hm hn => ?_⟩
  rw [schmidtP_eq, (h n m hm hn).1, abs_of_nonneg (cos_lat_nonneg hlat)]

example : Alloc ⟨List.replicate 171 7, List.replicate 171 7⟩ 17 ∧ |(60 : ℝ)| ≤ 90 := by
  constructor
  · constructor <;> simp only [List.length_replicate] <;> norm_num
  · norm_num

/-- **C19**, rejection of negative degrees (`ValueError`). -/
theorem C19_negative (o : Out ℝ) (lat : ℝ) (degree : Int) :
    legendreR o lat degree = none ↔ degree < 0 := by
  unfold legendreR legendrePy
  by_cases h : degree < 0 <;> simp [h]

/-- **C19**, the two algorithms agree wherever both are defined: from degree 1, off the
poles, for every start content of the buffers. -/
theorem C19_algorithms_agree (o₁ o₂ : Out ℝ) (degree : Nat) (hd : 1 ≤ degree)
    (h₁ : Alloc o₁ degree) (h₂ : Alloc o₂ degree) (scale s c : ℝ) (hs : scale ≠ 0) (hc : c ≠ 0)
    (hsc : s ^ 2 + c ^ 2 = 1) :
    ∃ o, low o₁ degree s c (presqrt Real.sqrt degree) (prersqrt Real.sqrt degree) = some o ∧
      high scale o₂ degree s c (presqrt Real.sqrt degree) (prersqrt Real.sqrt degree) = some o := by
  obtain ⟨a1, a2⟩ := alloc_tri h₁
  obtain ⟨b1, b2⟩ := alloc_tri h₂
  obtain ⟨o, e, t⟩ := low_spec s c o₁ hd a1 a2
  obtain ⟨o', e', t'⟩ := high_spec (s := s) (c := c) (scale := scale) (by linarith) hc hs o₂ hd b1 b2
  exact ⟨o, e, by rw [e', T.ext t t']⟩

example : ((3 : ℝ) / 5) ^ 2 + ((4 : ℝ) / 5) ^ 2 = 1 ∧ ((4 : ℝ) / 5) ≠ 0 := by norm_num

/-- **C19** fails for degree 0: the function writes three items to the output arrays of one
item, whatever the latitude. -/
theorem C19_degree_zero_overflow (o : Out ℝ) (lat : ℝ) (ho : Alloc o 0) :
    legendreR o lat 0 = some none := by
  obtain ⟨h1, -⟩ := alloc_tri (N := 0) ho
  have h1 : o.lp.length = 1 := h1
  unfold legendreR legendrePy legendre
  simp [low, wrI, wr, h1]

example : Alloc ⟨[3], [4]⟩ 0 := by constructor <;> simp

/-- **C19**, beyond the poles the functions of odd order have the opposite sign: the code
takes the absolute value of the cosine. -/
theorem C19_beyond_pole (o : Out ℝ) (ho : Alloc o 1) :
    ∃ o', legendreR o 180 1 = some (some o') ∧ o'.lp[2]? = some 1 ∧
      schmidtP 1 1 (180 * (Real.pi / 180)) = -1 := by
  obtain ⟨o', e, -, h⟩ := legendreR_spec o 180 1 (le_refl _) ho
  have hpi : (180 : ℝ) * (Real.pi / 180) = Real.pi := by ring
  refine ⟨o', e, ?_, ?_⟩
  · have := (h 1 1 (le_refl _) (by norm_num)).1
    rw [hpi, Sf_eq, sq_one_one] at this
    simpa using this
  · rw [schmidtP_eq, hpi, Sf_eq, sq_one_one]; simp

/-- **C20** (partial: from degree 1 and latitudes from -90 to 90).  The items of the second
array are the derivatives of the Legendre functions with respect to the latitude in
radians, at the poles included. -/
theorem C20_derivative_partial (o : Out ℝ) (lat : ℝ) (degree : Int) (hd : 1 ≤ degree)
    (ho : Alloc o degree) (hlat : |lat| ≤ 90) :
    ∃ o', legendreR o lat degree = some (some o') ∧ Alloc o' degree ∧
      ∀ n m : Nat, m ≤ n → (n : Int) ≤ degree →
        ∃ d, o'.ldp[n * (n + 1) / 2 + m]? = some d ∧
          HasDerivAt (schmidtP n m) d (lat * (Real.pi / 180)) := by
  obtain ⟨o', e, ha, h⟩ := legendreR_spec o lat degree hd ho
  refine ⟨o', e, ha, fun n m hm hn => ⟨_, (h n m hm hn).2, ?_⟩⟩
  rw [abs_of_nonneg (cos_lat_nonneg hlat)]
  exact hasDerivAt_schmidtP n m _

/-- **C20** (partial), in terms of the two returned arrays only: the second one is the
derivative of the first one, per radian, for latitudes inside of (-90, 90). -/
theorem C20_outputs_partial (degree : Int) (hd : 1 ≤ degree) (o : ℝ → Out ℝ)
    (ho : ∀ lat, Alloc (o lat) degree) (out : ℝ → Out ℝ)
    (hout : ∀ lat, legendreR (o lat) lat degree = some (some (out lat)))
    (lat : ℝ) (hlat : |lat| < 90) (k : Nat) (hk : (k : Int) * 2 < (degree + 1) * (degree + 2)) :
    ∃ d, (out lat).ldp[k]? = some d ∧
      HasDerivAt (fun x => ((out x).lp[k]?).getD 0) (d * (Real.pi / 180)) lat := by
  have hk' : k < tri (degree.toNat + 1) := by
    have e := tri_mul (degree.toNat + 1)
    obtain ⟨N, rfl⟩ : ∃ N : Nat, degree = N := ⟨degree.toNat, by omega⟩
    have a : k * 2 < (N + 1) * (N + 2) := by exact_mod_cast hk
    rw [Int.toNat_natCast] at e ⊢
    nlinarith
  obtain ⟨n, m, hm, hn, rfl⟩ := tri_surj _ _ hk'
  rw [← tri_half]
  have hval : ∀ x, |x| ≤ 90 → ((out x).lp[n * (n + 1) / 2 + m]?).getD 0 =
      schmidtP n m (x * (Real.pi / 180)) := by
    intro x hx
    obtain ⟨o', e, -, h⟩ := C19_legendre_partial (o x) x degree hd (ho x) hx
    rw [hout x] at e
    simp only [Option.some.injEq] at e
    rw [e, h n m hm (by omega)]; rfl
  obtain ⟨o', e, -, h⟩ := C20_derivative_partial (o lat) lat degree hd (ho lat) hlat.le
  obtain ⟨dd, e1, hder⟩ := h n m hm (by omega)
  rw [hout lat] at e
  simp only [Option.some.injEq] at e
  refine ⟨dd, by rw [e]; exact e1, ?_⟩
  have hlin : HasDerivAt (fun x : ℝ => x * (Real.pi / 180)) (Real.pi / 180) lat := by
    simpa using (hasDerivAt_id lat).mul_const (Real.pi / 180)
  have hcomp := HasDerivAt.comp lat hder hlin
  refine hcomp.congr_of_eventuallyEq ?_
  have hopen : {x : ℝ | |x| < 90} ∈ nhds lat :=
    (isOpen_lt continuous_abs continuous_const).mem_nhds hlat
  filter_upwards [hopen] with x hx
  exact hval x (le_of_lt hx)

example : |(89 : ℝ)| < 90 ∧ ((152 : Nat) : Int) * 2 < (16 + 1) * (16 + 2) := by norm_num

/-- **C20** fails beyond the poles: at 180 degrees the returned derivative of the sine is
`+1`, the derivative is `-1`. -/
theorem C20_beyond_pole (o : Out ℝ) (ho : Alloc o 1) :
    ∃ o', legendreR o 180 1 = some (some o') ∧ o'.ldp[1]? = some 1 ∧
      HasDerivAt (schmidtP 1 0) (-1) (180 * (Real.pi / 180)) := by
  obtain ⟨o', e, -, h⟩ := legendreR_spec o 180 1 (le_refl _) ho
  have hpi : (180 : ℝ) * (Real.pi / 180) = Real.pi := by ring
  have hd : ∀ s c : ℝ, Sd s c 1 0 = c := by
    intro s c; rw [Sd_eq, sq_gq, gq_subdiag, rho_one_zero]; simp
  refine ⟨o', e, ?_, ?_⟩
  · have := (h 1 0 (by norm_num) (by norm_num)).2
    rw [hpi, hd] at this
    simpa using this
  · rw [hpi]
    have := hasDerivAt_schmidtP 1 0 Real.pi
    rwa [hd, Real.cos_pi] at this

end Verif.Props
