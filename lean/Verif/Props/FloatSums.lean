/-
C85: the accuracy of the sums of the spherical harmonic series in double precision.
-/
import Verif.Lemmas.FloatSums
import Verif.Props.FloatSeries

namespace Verif.Props

open Verif.Buf Verif.Spec Verif.FloatSums Verif.FloatSeries Verif.ShPoint

/-- Coefficients `g`, `h` up to the degree `N` as stored in memory, with bounds of their sizes. -/
def HoldsCoef (N : Nat) (coef : List (ℝ × ℝ)) (g h G : Nat → Nat → ℝ) : Prop :=
  ∀ i ≤ N, ∀ j ≤ i, coef[i * (i + 1) / 2 + j]? = some (g i j, h i j) ∧ |g i j| ≤ G i j ∧ |h i j| ≤ G i j ∧
    2 ^ (-300 : ℤ) ≤ G i j

/-- A table over degrees and orders which is accurate up to `n` roundings, of the values `P`
bounded by `Q`. -/
def HoldsTri (N n : Nat) (t : List ℝ) (P Q : Nat → Nat → ℝ) : Prop :=
  ∀ i ≤ N, ∀ j ≤ i, ∃ v, t[i * (i + 1) / 2 + j]? = some v ∧ Rounded n (Q i j) (P i j) v ∧
    2 ^ (-300 : ℤ) ≤ Q i j

/-- A table over degrees. -/
def HoldsRad (N n : Nat) (t : List ℝ) (P Q : Nat → ℝ) : Prop :=
  ∀ i ≤ N, ∃ v, t[i]? = some v ∧ Rounded n (Q i) (P i) v ∧ 2 ^ (-300 : ℤ) ≤ Q i

/-- A table of cosines and sines of the multiples of `x`. -/
def HoldsCs (N n : Nat) (t : List (ℝ × ℝ)) (x : ℝ) : Prop :=
  ∀ j ≤ N, ∃ c s, t[j]? = some (c, s) ∧ Rounded n 1 (Real.cos (j * x)) c ∧ Rounded n 1 (Real.sin (j * x)) s

/-- The potential of the coefficients with the given radial functions and functions of the
latitude, at the longitude `x`. -/
noncomputable def potential (N : Nat) (r : ℝ) (g h P : Nat → Nat → ℝ) (R : Nat → ℝ) (x : ℝ) : ℝ :=
  r * ∑ i ∈ Finset.range (N + 1), R i * ∑ j ∈ Finset.range (i + 1),
    (g i j * Real.cos (j * x) + h i j * Real.sin (j * x)) * P i j

/-- The size of the terms of the potential. -/
noncomputable def potentialSize (N : Nat) (r : ℝ) (G Q : Nat → Nat → ℝ) (B : Nat → ℝ) : ℝ :=
  r * ∑ i ∈ Finset.range (N + 1), B i * ∑ j ∈ Finset.range (i + 1), 2 * G i j * Q i j

theorem mul_small {a b : ℝ} {k l : ℤ} (ha : 2 ^ k ≤ a) (hb : 2 ^ l ≤ b) : (2 : ℝ) ^ (k + l) ≤ a * b := by
  rw [zpow_add₀ (by norm_num)]
  exact mul_le_mul ha hb (by positivity) (le_trans (by positivity) ha)

theorem le_sum_first {n : Nat} {f : Nat → ℝ} (h : ∀ j ≤ n, 0 ≤ f j) : f 0 ≤ ∑ j ∈ Finset.range (n + 1), f j :=
  Finset.single_le_sum (f := f) (fun j hj => h j (by have := Finset.mem_range.mp hj; omega))
    (Finset.mem_range.mpr (by omega))

/-- `g cos + h sin` with rounding. -/
theorem pair_round {rnd : ℝ → ℝ} (R : Nearest rnd) {n : Nat} {g h G c s c' s' : ℝ} (hg : |g| ≤ G) (hh : |h| ≤ G)
    (hG : 2 ^ (-300 : ℤ) ≤ G) (hc : Rounded n 1 c c') (hs : Rounded n 1 s s') :
    Rounded (n + 2) (2 * G) (g * c + h * s) (rnd (rnd (g * c') + rnd (h * s'))) ∧
    Rounded (n + 2) (2 * G) (g * s - h * c) (rnd (rnd (g * s') - rnd (h * c'))) := by
  have hs1 : 2 ^ (-1021 : ℤ) ≤ G := small_le (by norm_num) hG
  have h0 : 0 ≤ G := (abs_nonneg g).trans hg
  have t : ∀ {a b b' : ℝ}, |a| ≤ G → Rounded n 1 b b' → Rounded (n + 1) G (a * b) (rnd (a * b')) := by
    intro a b b' ha hb
    have := (Rounded.exact ha).mul hb
    rw [mul_one, zero_add] at this
    exact this.rnd R hs1
  rw [two_mul]
  exact ⟨((t hg hc).add (t hh hs)).rnd R (by linarith), ((t hg hs).sub (t hh hc)).rnd R (by linarith)⟩

/-- C85: the potential by `spharpot` in double precision from tables of the cosines and sines,
of the functions of the latitude and of the radial functions which are accurate up to `nL`, `nP`
and `nR` roundings: the effect of `nL + nP + nR + 2N + 5` roundings on the sizes of the terms.
All the accesses are inside of the tables. -/
theorem C85_potential {rnd : ℝ → ℝ} (Rn : Nearest rnd) {N nL nP nR : Nat} {coef lcs : List (ℝ × ℝ)}
    {lp rrp : List ℝ} {g h G P Q : Nat → Nat → ℝ} {R B : Nat → ℝ} {x r : ℝ}
    (hc : HoldsCoef N coef g h G) (hl : HoldsCs N nL lcs x) (hp : HoldsTri N nP lp P Q)
    (hr : HoldsRad N nR rrp R B) (h00 : P 0 0 = 1) (hr0 : 2 ^ (-100 : ℤ) ≤ r) :
    ∃ v, evalVF rnd N r coef lcs lp rrp = some v ∧
      Rounded (nL + nP + nR + 2 * N + 5) (potentialSize N r G Q B) (potential N r g h P R x) v := by
  have inner : ∀ i, 1 ≤ i → i ≤ N → ∃ c p vi, coef[i * (i + 1) / 2]? = some c ∧ lp[i * (i + 1) / 2]? = some p ∧
      forTo 1 i (fun j vi => do
        let idx := i * (i + 1) / 2 + j
        let c ← rd coef idx
        let l ← rd lcs j
        let tmp := rnd (rnd (c.1 * l.1) + rnd (c.2 * l.2))
        let p ← rd lp (i * (i + 1) / 2 + j)
        return rnd (vi + rnd (tmp * p))) (rnd (c.1 * p)) = some vi ∧
      Rounded (nL + nP + 3 + N) (∑ j ∈ Finset.range (i + 1), 2 * G i j * Q i j)
        (∑ j ∈ Finset.range (i + 1), (g i j * Real.cos (j * x) + h i j * Real.sin (j * x)) * P i j) vi := by
    intro i hi hiN
    obtain ⟨e1, e2, e3, e4⟩ := hc i hiN 0 (by omega)
    obtain ⟨p, e5, e6, e7⟩ := hp i hiN 0 (by omega)
    have hGQ : ∀ j ≤ i, 2 ^ (-1021 : ℤ) ≤ 2 * G i j * Q i j := by
      intro j hj
      obtain ⟨-, -, -, q4⟩ := hc i hiN j hj
      obtain ⟨-, -, -, q7⟩ := hp i hiN j hj
      have := small_le (by norm_num) (mul_small q4 q7)
      have h0 : (0 : ℝ) ≤ G i j * Q i j := le_trans (by positivity) this
      nlinarith
    have start : Rounded (nL + nP + 3) (2 * G i 0 * Q i 0)
        ((g i 0 * Real.cos ((0 : Nat) * x) + h i 0 * Real.sin ((0 : Nat) * x)) * P i 0) (rnd (g i 0 * p)) := by
      have hg0 := small_le (by norm_num) (mul_small e4 e7)
      have := ((Rounded.exact e2).mul e6).rnd Rn hg0
      have h0 : (0 : ℝ) ≤ G i 0 * Q i 0 := le_trans (by positivity) hg0
      simp only [Nat.cast_zero, zero_mul, Real.cos_zero, Real.sin_zero, mul_one, mul_zero, add_zero]
      exact this.mono (by omega) (by nlinarith)
    obtain ⟨vi, hv1, hv2⟩ := acc_round Rn (x := fun j => (g i j * Real.cos (j * x) + h i j * Real.sin (j * x)) * P i j)
      (M := fun j => 2 * G i j * Q i j) (n := i) (m := nL + nP + 3) start (fun j _ hj => hGQ j hj)
      (body := fun j vi => do
        let idx := i * (i + 1) / 2 + j
        let c ← rd coef idx
        let l ← rd lcs j
        let tmp := rnd (rnd (c.1 * l.1) + rnd (c.2 * l.2))
        let p ← rd lp (i * (i + 1) / 2 + j)
        return rnd (vi + rnd (tmp * p)))
      (by
        intro j v hj hji
        obtain ⟨q1, q2, q3, q4⟩ := hc i hiN j hji
        obtain ⟨p, q5, q6, q7⟩ := hp i hiN j hji
        obtain ⟨c, s, q8, q9, q10⟩ := hl j (by omega)
        refine ⟨rnd (rnd (rnd (g i j * c) + rnd (h i j * s)) * p), ?_, ?_⟩
        · simp only [rd, q1, q5, q8, Option.bind_eq_bind, Option.bind_some]
          rfl
        · have := ((pair_round Rn q2 q3 q4 q9 q10).1.mul q6).rnd Rn (hGQ j hji)
          exact this.mono (by omega) le_rfl)
    exact ⟨_, p, vi, by simpa using e1, by simpa using e5, hv1, hv2.mono (by omega) le_rfl⟩
  obtain ⟨a1, a2, -, a4⟩ := hc 0 (by omega) 0 le_rfl
  obtain ⟨r0, b1, b2, b3⟩ := hr 0 (by omega)
  obtain ⟨p0, c1, c2, c3⟩ := hp 0 (by omega) 0 le_rfl
  have hQ1 : 1 ≤ Q 0 0 := by
    have := c2.1
    rwa [h00, abs_one] at this
  have hsum : ∀ i ≤ N, 2 ^ (-600 : ℤ) ≤ ∑ j ∈ Finset.range (i + 1), 2 * G i j * Q i j := by
    intro i hi
    have hj : ∀ j ≤ i, 2 ^ (-600 : ℤ) ≤ 2 * G i j * Q i j := by
      intro j hj
      obtain ⟨-, -, -, q4⟩ := hc i hi j hj
      obtain ⟨-, -, -, q7⟩ := hp i hi j hj
      have := mul_small q4 q7
      norm_num only at this
      have h0 : (0 : ℝ) ≤ G i j * Q i j := le_trans (by positivity) this
      nlinarith
    exact (hj 0 (by omega)).trans (le_sum_first (f := fun j => 2 * G i j * Q i j)
      (fun j hj' => le_trans (by positivity) (hj j hj')))
  have hBs : ∀ i ≤ N, 2 ^ (-900 : ℤ) ≤ B i * ∑ j ∈ Finset.range (i + 1), 2 * G i j * Q i j := by
    intro i hi
    obtain ⟨-, -, -, q⟩ := hr i hi
    have := mul_small q (hsum i hi)
    norm_num only at this
    exact this
  have start : Rounded (nL + nP + nR + 4 + N) (B 0 * ∑ j ∈ Finset.range (0 + 1), 2 * G 0 j * Q 0 j)
      (R 0 * ∑ j ∈ Finset.range (0 + 1), (g 0 j * Real.cos (j * x) + h 0 j * Real.sin (j * x)) * P 0 j)
      (rnd (g 0 0 * r0)) := by
    have hm := mul_small a4 b3
    have hg0 := small_le (by norm_num) hm
    have := ((Rounded.exact a2).mul b2).rnd Rn hg0
    have h0 : (0 : ℝ) ≤ G 0 0 * B 0 := le_trans (by positivity) hm
    simp only [zero_add, Finset.sum_range_one, Nat.cast_zero, zero_mul, Real.cos_zero, Real.sin_zero, mul_one, mul_zero,
      add_zero, h00]
    rw [mul_comm (R 0)]
    refine this.mono (by omega) ?_
    nlinarith
  obtain ⟨v, hv1, hv2⟩ := acc_round Rn (n := N) (m := nL + nP + nR + 4 + N)
    (x := fun i => R i * ∑ j ∈ Finset.range (i + 1), (g i j * Real.cos (j * x) + h i j * Real.sin (j * x)) * P i j)
    (M := fun i => B i * ∑ j ∈ Finset.range (i + 1), 2 * G i j * Q i j) start
    (fun i _ hi => small_le (by norm_num) (hBs i hi))
    (body := fun i v => do
      let ioff := i * (i + 1) / 2
      let c ← rd coef ioff
      let p ← rd lp ioff
      let vi ← forTo 1 i (fun j vi => do
        let idx := ioff + j
        let c ← rd coef idx
        let l ← rd lcs j
        let tmp := rnd (rnd (c.1 * l.1) + rnd (c.2 * l.2))
        let p ← rd lp (ioff + j)
        return rnd (vi + rnd (tmp * p))) (rnd (c.1 * p))
      let r ← rd rrp i
      return rnd (v + rnd (r * vi)))
    (by
      intro i v hi hiN
      obtain ⟨c, p, vi, d1, d2, d3, d4⟩ := inner i hi hiN
      obtain ⟨ri, f1, f2, f3⟩ := hr i hiN
      refine ⟨rnd (ri * vi), ?_, ?_⟩
      · simp only [rd, f1, d1, d2, Option.bind_eq_bind, Option.bind_some]
        simp only [rd, Option.bind_eq_bind] at d3
        rw [d3]
        rfl
      · exact ((f2.mul d4).rnd Rn (small_le (by norm_num) (hBs i hiN))).mono (by omega) le_rfl)
  have hrr : Rounded 0 r r r := Rounded.exact (by rw [abs_of_nonneg (le_trans (by positivity) hr0)])
  refine ⟨rnd (v * r), ?_, ?_⟩
  · unfold evalVF
    have a1' : coef[0]? = some (g 0 0, h 0 0) := by simpa using a1
    simp only [rd, a1', b1, Option.bind_eq_bind, Option.bind_some]
    simp only [rd, Option.bind_eq_bind] at hv1
    rw [hv1]
    rfl
  · have hM : 2 ^ (-1021 : ℤ) ≤ potentialSize N r G Q B := by
      have h1 := le_sum_first (n := N) (f := fun i => B i * ∑ j ∈ Finset.range (i + 1), 2 * G i j * Q i j)
        (fun j hj => le_trans (by positivity) (hBs j hj))
      have h2 := mul_small hr0 ((hBs 0 (by omega)).trans h1)
      exact small_le (by norm_num) h2
    have := hrr.mul hv2
    rw [mul_comm r v, zero_add] at this
    exact (this.rnd Rn hM).mono (by omega) le_rfl

/-- Factor of the radial derivative: `i + 1` for the internal field, `-i` for the external one. -/
def radialFactor (isInternal : Bool) (i : Nat) : ℝ := if isInternal then (i : ℝ) + 1 else -(i : ℝ)

/-- Northward component of the gradient, `D` being the derivatives of the functions of the
latitude. -/
noncomputable def gradNorth (N : Nat) (g h D : Nat → Nat → ℝ) (R : Nat → ℝ) (x : ℝ) : ℝ :=
  ∑ i ∈ Finset.range (N + 1), R i * ∑ j ∈ Finset.range (i + 1),
    (g i j * Real.cos (j * x) + h i j * Real.sin (j * x)) * D i j

noncomputable def gradNorthSize (N : Nat) (G T : Nat → Nat → ℝ) (B : Nat → ℝ) : ℝ :=
  ∑ i ∈ Finset.range (N + 1), B i * ∑ j ∈ Finset.range (i + 1), 2 * G i j * T i j

/-- Eastward component of the gradient times the cosine of the latitude. -/
noncomputable def gradEast (N : Nat) (g h P : Nat → Nat → ℝ) (R : Nat → ℝ) (x : ℝ) : ℝ :=
  ∑ i ∈ Finset.range (N + 1), R i * ∑ j ∈ Finset.range (i + 1),
    (h i j * Real.cos (j * x) - g i j * Real.sin (j * x)) * P i j * j

noncomputable def gradEastSize (N : Nat) (G Q : Nat → Nat → ℝ) (B : Nat → ℝ) : ℝ :=
  ∑ i ∈ Finset.range (N + 1), B i * ∑ j ∈ Finset.range (i + 1), 2 * G i j * Q i j * j

/-- Radial component of the gradient. -/
noncomputable def gradUp (N : Nat) (isInternal : Bool) (g h P : Nat → Nat → ℝ) (R : Nat → ℝ) (x : ℝ) : ℝ :=
  -∑ i ∈ Finset.range (N + 1), radialFactor isInternal i * (R i * ∑ j ∈ Finset.range (i + 1),
    (g i j * Real.cos (j * x) + h i j * Real.sin (j * x)) * P i j)

noncomputable def gradUpSize (N : Nat) (isInternal : Bool) (G Q : Nat → Nat → ℝ) (B : Nat → ℝ) : ℝ :=
  ∑ i ∈ Finset.range (N + 1), |radialFactor isInternal i| * (B i * ∑ j ∈ Finset.range (i + 1), 2 * G i j * Q i j)

theorem idr_factor (isInternal : Bool) (i : Nat) : (idr isInternal i : ℝ) = radialFactor isInternal i := by
  cases isInternal <;> simp [idr, radialFactor]

theorem factor_one (isInternal : Bool) {i : Nat} (hi : 1 ≤ i) : 1 ≤ |radialFactor isInternal i| := by
  have h1 : (1 : ℝ) ≤ i := by exact_mod_cast hi
  cases isInternal
  · simp only [radialFactor, Bool.false_eq_true, if_false, abs_neg]
    rwa [abs_of_nonneg (by linarith)]
  · simp only [radialFactor, if_true]
    rw [abs_of_nonneg (by linarith)]
    linarith

/-- The loop near the poles stays inside of the tables. -/
theorem pole_defined {rnd : ℝ → ℝ} {N nL nR : Nat} {coef lcs : List (ℝ × ℝ)} {rrp : List ℝ}
    {g h G : Nat → Nat → ℝ} {R B : Nat → ℝ} {x : ℝ} (hN : 1 ≤ N) (hc : HoldsCoef N coef g h G)
    (hl : HoldsCs N nL lcs x) (hr : HoldsRad N nR rrp R B) (sin sqrt : ℝ → ℝ) (elv : ℝ) :
    ∃ v, dvazPoleF rnd sin sqrt N elv coef lcs rrp = some v := by
  obtain ⟨c, s, l1, -⟩ := hl 1 hN
  obtain ⟨r1, e1, -⟩ := hr 1 hN
  have c1 := (hc 1 hN 1 le_rfl).1
  norm_num only at c1
  unfold dvazPoleF
  simp only [rd, l1, e1, c1, Option.bind_eq_bind, Option.bind_some]
  obtain ⟨st, h1, -⟩ := forTo_inv (fun _ _ => True) (fun i (st : Pole ℝ) => (coef[1 + i * (i + 1) / 2]?).bind fun c_1 =>
    (rrp[i]?).bind fun r => some (Pole.mk
      (rnd (st.dvaz + rnd (rnd (rnd (rnd (rnd (c_1.1 * s) - rnd (c_1.2 * c)) * r) *
        rnd (rnd (sin elv * st.ps0) - rnd (rnd ((((i - 1) * (i - 1) - 1 : Nat) : ℝ) /
          (((2 * i - 1) * (2 * i - 3) : Nat) : ℝ)) * st.ps1))) *
        rnd (rnd (st.sqn1 * rnd (((2 * i - 1 : Nat) : ℝ) / (i : ℝ))) *
          sqrt (rnd (((i * 2 : Nat) : ℝ) / ((i + 1 : Nat) : ℝ)))))))
      (rnd (st.sqn1 * rnd (((2 * i - 1 : Nat) : ℝ) / (i : ℝ)))) st.ps0
      (rnd (rnd (sin elv * st.ps0) - rnd (rnd ((((i - 1) * (i - 1) - 1 : Nat) : ℝ) /
          (((2 * i - 1) * (2 * i - 3) : Nat) : ℝ)) * st.ps1)))))
    2 N ⟨rnd (rnd (rnd (g 1 1 * s) - rnd (h 1 1 * c)) * r1), 1, 1, 1⟩ (by omega) trivial
    (by
      intro i st hi hiN _
      have q := (hc i hiN 1 (by omega)).1
      obtain ⟨ri, q2, -⟩ := hr i hiN
      rw [add_comm] at q
      rw [q, q2]
      exact ⟨_, rfl, trivial⟩)
  refine ⟨-st.dvaz, ?_⟩
  simp only [pure] at h1 ⊢
  rw [h1]
  rfl

/-- C85: the gradient by `sphargrd` in double precision from tables as for `C85_potential` and
from a table of the derivatives of the functions of the latitude.  The eastward component is
claimed outside of the neighbourhood of the poles, relative to the cosine returned by the
library. -/
theorem C85_gradient {rnd : ℝ → ℝ} (Rn : Nearest rnd) {N nL nP nD nR : Nat} {coef lcs : List (ℝ × ℝ)}
    {lp ldp rrp : List ℝ} {g h G P Q D T : Nat → Nat → ℝ} {R B : Nat → ℝ} {x : ℝ}
    (hc : HoldsCoef N coef g h G) (hl : HoldsCs N nL lcs x) (hp : HoldsTri N nP lp P Q)
    (hd : HoldsTri N nD ldp D T) (hr : HoldsRad N nR rrp R B) (h00 : P 0 0 = 1) (hd00 : D 0 0 = 0)
    (sin cos sqrt : ℝ → ℝ) (elv : ℝ) (isInternal : Bool) (hcos : |cos elv| ≤ 2) :
    ∃ v, evalDvF rnd sin cos sqrt (fun y => decide (|y| < 1e-10)) N elv coef lcs lp ldp rrp isInternal = some v ∧
      Rounded (nL + nD + nR + 2 * N + 4) (gradNorthSize N G T B) (gradNorth N g h D R x) v.el ∧
      Rounded (nL + nP + nR + 2 * N + 5) (gradUpSize N isInternal G Q B) (gradUp N isInternal g h P R x) v.rd ∧
      (1 ≤ N → 1e-10 ≤ |cos elv| → Rounded (nL + nP + nR + 2 * N + 6) (gradEastSize N G Q B / |cos elv|)
        (gradEast N g h P R x / cos elv) v.az) := by
  have hGQ : ∀ i ≤ N, ∀ j ≤ i, 2 ^ (-600 : ℤ) ≤ 2 * G i j * Q i j := by
    intro i hiN j hj
    obtain ⟨-, -, -, q4⟩ := hc i hiN j hj
    obtain ⟨-, -, -, q7⟩ := hp i hiN j hj
    have := mul_small q4 q7
    norm_num only at this
    have h0 : (0 : ℝ) ≤ G i j * Q i j := le_trans (by positivity) this
    nlinarith
  have hGT : ∀ i ≤ N, ∀ j ≤ i, 2 ^ (-600 : ℤ) ≤ 2 * G i j * T i j := by
    intro i hiN j hj
    obtain ⟨-, -, -, q4⟩ := hc i hiN j hj
    obtain ⟨-, -, -, q7⟩ := hd i hiN j hj
    have := mul_small q4 q7
    norm_num only at this
    have h0 : (0 : ℝ) ≤ G i j * T i j := le_trans (by positivity) this
    nlinarith
  have hGQj : ∀ i ≤ N, ∀ j ≤ i, 1 ≤ j → 2 ^ (-600 : ℤ) ≤ 2 * G i j * Q i j * j := by
    intro i hiN j hj hj1
    have h1 := hGQ i hiN j hj
    have : (1 : ℝ) ≤ j := by exact_mod_cast hj1
    exact h1.trans (le_mul_of_one_le_right (le_trans (by positivity) h1) this)
  have hGQf : ∀ i ≤ N, ∀ j ≤ i, 1 ≤ i → 2 ^ (-600 : ℤ) ≤ 2 * G i j * Q i j * |radialFactor isInternal i| := by
    intro i hiN j hj hi1
    have h1 := hGQ i hiN j hj
    exact h1.trans (le_mul_of_one_le_right (le_trans (by positivity) h1) (factor_one isInternal hi1))
  have hf : ∀ i, Rounded 0 |radialFactor isInternal i| (idr isInternal i) (idr isInternal i) := by
    intro i
    rw [idr_factor]
    exact Rounded.exact le_rfl
  set body : Nat → Nat → ℝ × ℝ × ℝ → Option (ℝ × ℝ × ℝ) := fun i j st => do
      let idx := i * (i + 1) / 2 + j
      let c ← rd coef idx
      let l ← rd lcs j
      let tmp0 := rnd (rnd (c.1 * l.1) + rnd (c.2 * l.2))
      let tmp1 := rnd (rnd (c.1 * l.2) - rnd (c.2 * l.1))
      let p ← rd lp idx
      let d ← rd ldp idx
      return (rnd (st.1 + rnd (tmp0 * d)), rnd (st.2.1 + rnd (rnd (tmp1 * p) * (j : ℝ))),
        rnd (st.2.2 + rnd (rnd (tmp0 * p) * idr isInternal i))) with hbody
  have inner : ∀ i, 1 ≤ i → i ≤ N → ∃ c p d v, coef[i * (i + 1) / 2]? = some c ∧
      lp[i * (i + 1) / 2]? = some p ∧ ldp[i * (i + 1) / 2]? = some d ∧
      forTo 1 i (body i) (rnd (c.1 * d), 0, rnd (rnd (c.1 * p) * idr isInternal i)) = some v ∧
      Rounded (nL + nD + 3 + N) (∑ j ∈ Finset.range (i + 1), 2 * G i j * T i j)
        (∑ j ∈ Finset.range (i + 1), (g i j * Real.cos (j * x) + h i j * Real.sin (j * x)) * D i j) v.1 ∧
      Rounded (nL + nP + 4 + N) (∑ j ∈ Finset.range (i + 1), 2 * G i j * Q i j * j)
        (∑ j ∈ Finset.range (i + 1), (g i j * Real.sin (j * x) - h i j * Real.cos (j * x)) * P i j * j) v.2.1 ∧
      Rounded (nL + nP + 4 + N) (∑ j ∈ Finset.range (i + 1), 2 * G i j * Q i j * |radialFactor isInternal i|)
        (∑ j ∈ Finset.range (i + 1), (g i j * Real.cos (j * x) + h i j * Real.sin (j * x)) * P i j *
          idr isInternal i) v.2.2 := by
    intro i hi hiN
    obtain ⟨e1, e2, e3, e4⟩ := hc i hiN 0 (by omega)
    obtain ⟨p, e5, e6, e7⟩ := hp i hiN 0 (by omega)
    obtain ⟨d, f5, f6, f7⟩ := hd i hiN 0 (by omega)
    have hg0 := small_le (by norm_num) (mul_small e4 e7)
    have h0 : (0 : ℝ) ≤ G i 0 * Q i 0 := le_trans (by positivity) hg0
    have hp0 := small_le (by norm_num) (mul_small e4 f7)
    have h1 : (0 : ℝ) ≤ G i 0 * T i 0 := le_trans (by positivity) hp0
    have s1 : Rounded (nL + nD + 3) (2 * G i 0 * T i 0)
        ((g i 0 * Real.cos ((0 : Nat) * x) + h i 0 * Real.sin ((0 : Nat) * x)) * D i 0) (rnd (g i 0 * d)) := by
      have := ((Rounded.exact e2).mul f6).rnd Rn hp0
      simp only [Nat.cast_zero, zero_mul, Real.cos_zero, Real.sin_zero, mul_one, mul_zero, add_zero]
      exact this.mono (by omega) (by nlinarith)
    have s2 : Rounded (nL + nP + 4) (2 * G i 0 * Q i 0 * (0 : Nat))
        ((g i 0 * Real.sin ((0 : Nat) * x) - h i 0 * Real.cos ((0 : Nat) * x)) * P i 0 * (0 : Nat)) 0 := by
      simp only [Nat.cast_zero, mul_zero]
      exact (Rounded.exact (by simp)).mono (by omega) le_rfl
    have s3 : Rounded (nL + nP + 4) (2 * G i 0 * Q i 0 * |radialFactor isInternal i|)
        ((g i 0 * Real.cos ((0 : Nat) * x) + h i 0 * Real.sin ((0 : Nat) * x)) * P i 0 * idr isInternal i)
        (rnd (rnd (g i 0 * p) * idr isInternal i)) := by
      have t1 := (((Rounded.exact e2).mul e6).rnd Rn hg0).mono (m := nP + 1) (by omega)
        (show G i 0 * Q i 0 ≤ 2 * G i 0 * Q i 0 by nlinarith)
      have := (t1.mul (hf i)).rnd Rn (small_le (by norm_num) (hGQf i hiN 0 (by omega) hi))
      simp only [Nat.cast_zero, zero_mul, Real.cos_zero, Real.sin_zero, mul_one, mul_zero, add_zero]
      exact this.mono (by omega) le_rfl
    obtain ⟨v, v1, v2, v3, v4⟩ := acc_round3 Rn (n := i) (body := body i)
      (x1 := fun j => (g i j * Real.cos (j * x) + h i j * Real.sin (j * x)) * D i j)
      (M1 := fun j => 2 * G i j * T i j)
      (x2 := fun j => (g i j * Real.sin (j * x) - h i j * Real.cos (j * x)) * P i j * j)
      (M2 := fun j => 2 * G i j * Q i j * j)
      (x3 := fun j => (g i j * Real.cos (j * x) + h i j * Real.sin (j * x)) * P i j * idr isInternal i)
      (M3 := fun j => 2 * G i j * Q i j * |radialFactor isInternal i|) s1 s2 s3
      (fun j _ hj => small_le (by norm_num) (hGT i hiN j hj))
      (fun j hj1 hj => small_le (by norm_num) (hGQj i hiN j hj hj1))
      (fun j _ hj => small_le (by norm_num) (hGQf i hiN j hj hi))
      (by
        intro j v hj hji
        obtain ⟨q1, q2, q3, q4⟩ := hc i hiN j hji
        obtain ⟨p, q5, q6, q7⟩ := hp i hiN j hji
        obtain ⟨d, u5, u6, u7⟩ := hd i hiN j hji
        obtain ⟨c, s, q8, q9, q10⟩ := hl j (by omega)
        refine ⟨rnd (rnd (rnd (g i j * c) + rnd (h i j * s)) * d),
          rnd (rnd (rnd (rnd (g i j * s) - rnd (h i j * c)) * p) * (j : ℝ)),
          rnd (rnd (rnd (rnd (g i j * c) + rnd (h i j * s)) * p) * idr isInternal i), ?_, ?_, ?_, ?_⟩
        · simp only [hbody, rd, q1, q5, q8, u5, Option.bind_eq_bind, Option.bind_some]
          rfl
        · have := ((pair_round Rn q2 q3 q4 q9 q10).1.mul u6).rnd Rn (small_le (by norm_num) (hGT i hiN j hji))
          exact this.mono (by omega) le_rfl
        · have t1 := ((pair_round Rn q2 q3 q4 q9 q10).2.mul q6).rnd Rn (small_le (by norm_num) (hGQ i hiN j hji))
          have := (t1.mul (Rounded.exact (x := (j : ℝ)) (M := j) (by rw [abs_of_nonneg (by positivity)]))).rnd Rn
            (small_le (by norm_num) (hGQj i hiN j hji hj))
          exact this.mono (by omega) le_rfl
        · have t1 := ((pair_round Rn q2 q3 q4 q9 q10).1.mul q6).rnd Rn (small_le (by norm_num) (hGQ i hiN j hji))
          have := (t1.mul (hf i)).rnd Rn (small_le (by norm_num) (hGQf i hiN j hji hi))
          exact this.mono (by omega) le_rfl)
    exact ⟨_, p, d, v, by simpa using e1, by simpa using e5, by simpa using f5, v1,
      v2.mono (by omega) le_rfl, v3.mono (by omega) le_rfl, v4.mono (by omega) le_rfl⟩
  obtain ⟨a1, a2, -, a4⟩ := hc 0 (by omega) 0 le_rfl
  obtain ⟨r0, b1, b2, b3⟩ := hr 0 (by omega)
  obtain ⟨p0, -, c2, -⟩ := hp 0 (by omega) 0 le_rfl
  have hQ1 : 1 ≤ Q 0 0 := by
    have := c2.1
    rwa [h00, abs_one] at this
  have hB : ∀ i ≤ N, 2 ^ (-300 : ℤ) ≤ B i := fun i hi => (hr i hi).choose_spec.2.2
  have sumT : ∀ i ≤ N, 2 ^ (-900 : ℤ) ≤ B i * ∑ j ∈ Finset.range (i + 1), 2 * G i j * T i j := by
    intro i hi
    have := mul_small (hB i hi) ((hGT i hi 0 (by omega)).trans (le_sum_first (f := fun j => 2 * G i j * T i j)
      (fun j hj' => le_trans (by positivity) (hGT i hi j hj'))))
    norm_num only at this
    exact this
  have sumJ : ∀ i ≤ N, 1 ≤ i → 2 ^ (-900 : ℤ) ≤ B i * ∑ j ∈ Finset.range (i + 1), 2 * G i j * Q i j * j := by
    intro i hi hi1
    have h1 : 2 * G i 1 * Q i 1 * (1 : Nat) ≤ ∑ j ∈ Finset.range (i + 1), 2 * G i j * Q i j * j :=
      Finset.single_le_sum (f := fun j : Nat => 2 * G i j * Q i j * (j : ℝ))
        (fun j hj => mul_nonneg (le_trans (by positivity) (hGQ i hi j (by have := Finset.mem_range.mp hj; omega)))
          (by positivity)) (Finset.mem_range.mpr (by omega))
    have := mul_small (hB i hi) ((hGQj i hi 1 (by omega) le_rfl).trans h1)
    norm_num only at this
    exact this
  have sumF : ∀ i ≤ N, 1 ≤ i → 2 ^ (-900 : ℤ) ≤
      B i * ∑ j ∈ Finset.range (i + 1), 2 * G i j * Q i j * |radialFactor isInternal i| := by
    intro i hi hi1
    have := mul_small (hB i hi) ((hGQf i hi 0 (by omega) hi1).trans
      (le_sum_first (f := fun j => 2 * G i j * Q i j * |radialFactor isInternal i|)
      (fun j hj' => le_trans (by positivity) (hGQf i hi j hj' hi1))))
    norm_num only at this
    exact this
  have s1 : Rounded (nL + nD + nR + 4 + N) (B 0 * ∑ j ∈ Finset.range (0 + 1), 2 * G 0 j * T 0 j)
      (R 0 * ∑ j ∈ Finset.range (0 + 1), (g 0 j * Real.cos (j * x) + h 0 j * Real.sin (j * x)) * D 0 j) 0 := by
    have e : (R 0 * ∑ j ∈ Finset.range (0 + 1), (g 0 j * Real.cos (j * x) + h 0 j * Real.sin (j * x)) * D 0 j) = 0 := by
      simp [hd00]
    rw [e]
    refine (Rounded.exact (M := 0) (by simp)).mono (by omega) (le_trans (by positivity) (sumT 0 (by omega)))
  have s2 : Rounded (nL + nP + nR + 5 + N) (B 0 * ∑ j ∈ Finset.range (0 + 1), 2 * G 0 j * Q 0 j * j)
      (-(R 0 * ∑ j ∈ Finset.range (0 + 1), (g 0 j * Real.sin (j * x) - h 0 j * Real.cos (j * x)) * P 0 j * j)) 0 := by
    have := (Rounded.exact (M := 0) (x := 0) (by simp)).mono (m := nL + nP + nR + 5 + N) (by omega) le_rfl
    simpa using this
  have s3 : Rounded (nL + nP + nR + 5 + N)
      (B 0 * ∑ j ∈ Finset.range (0 + 1), 2 * G 0 j * Q 0 j * |radialFactor isInternal 0|)
      (-(R 0 * ∑ j ∈ Finset.range (0 + 1), (g 0 j * Real.cos (j * x) + h 0 j * Real.sin (j * x)) * P 0 j *
        idr isInternal 0)) (rnd (-rnd (g 0 0 * r0) * idr isInternal 0)) := by
    have hm := mul_small a4 b3
    have hg0 := small_le (by norm_num) hm
    have h0 : (0 : ℝ) ≤ G 0 0 * B 0 := le_trans (by positivity) hm
    have t := ((Rounded.exact a2).mul b2).rnd Rn hg0
    simp only [zero_add, Finset.sum_range_one, Nat.cast_zero, zero_mul, Real.cos_zero, Real.sin_zero, mul_one, mul_zero,
      add_zero, h00]
    rcases Bool.eq_false_or_eq_true isInternal with hI | hI
    · have e1 : (idr isInternal 0 : ℝ) = 1 := by simp [hI, idr]
      have e2 : radialFactor isInternal 0 = 1 := by simp [hI, radialFactor]
      rw [e1, e2, abs_one, mul_one, mul_one, mul_one, mul_comm (R 0)]
      exact (t.neg.rnd Rn hg0).mono (by omega) (by nlinarith)
    · have e1 : (idr isInternal 0 : ℝ) = 0 := by simp [hI, idr]
      have e2 : radialFactor isInternal 0 = 0 := by simp [hI, radialFactor]
      rw [e1, e2]
      simp only [mul_zero, neg_zero, abs_zero, Rn.zero]
      exact (Rounded.exact (by simp)).mono (by omega) le_rfl
  obtain ⟨v, v1, v2, v3, v4⟩ := acc_round3 Rn (n := N)
    (body := fun i (st : ℝ × ℝ × ℝ) => do
      let ioff := i * (i + 1) / 2
      let c ← rd coef ioff
      let p ← rd lp ioff
      let d ← rd ldp ioff
      let sti ← forTo 1 i (body i) (rnd (c.1 * d), 0, rnd (rnd (c.1 * p) * idr isInternal i))
      let r ← rd rrp i
      return (rnd (st.1 + rnd (r * sti.1)), rnd (st.2.1 - rnd (r * sti.2.1)), rnd (st.2.2 - rnd (r * sti.2.2))))
    (x1 := fun i => R i * ∑ j ∈ Finset.range (i + 1), (g i j * Real.cos (j * x) + h i j * Real.sin (j * x)) * D i j)
    (M1 := fun i => B i * ∑ j ∈ Finset.range (i + 1), 2 * G i j * T i j)
    (x2 := fun i => -(R i * ∑ j ∈ Finset.range (i + 1), (g i j * Real.sin (j * x) - h i j * Real.cos (j * x)) * P i j * j))
    (M2 := fun i => B i * ∑ j ∈ Finset.range (i + 1), 2 * G i j * Q i j * j)
    (x3 := fun i => -(R i * ∑ j ∈ Finset.range (i + 1),
      (g i j * Real.cos (j * x) + h i j * Real.sin (j * x)) * P i j * idr isInternal i))
    (M3 := fun i => B i * ∑ j ∈ Finset.range (i + 1), 2 * G i j * Q i j * |radialFactor isInternal i|)
    s1 s2 s3
    (fun i _ hi => small_le (by norm_num) (sumT i hi))
    (fun i hi1 hi => small_le (by norm_num) (sumJ i hi hi1))
    (fun i hi1 hi => small_le (by norm_num) (sumF i hi hi1))
    (by
      intro i v hi hiN
      obtain ⟨c, p, d, vi, d1, d2, d3, d4, d5, d6, d7⟩ := inner i hi hiN
      obtain ⟨ri, f1, f2, f3⟩ := hr i hiN
      refine ⟨rnd (ri * vi.1), -rnd (ri * vi.2.1), -rnd (ri * vi.2.2), ?_, ?_, ?_, ?_⟩
      · simp only [rd, f1, d1, d2, d3, d4, Option.bind_eq_bind, Option.bind_some, ← sub_eq_add_neg]
        rfl
      · exact ((f2.mul d5).rnd Rn (small_le (by norm_num) (sumT i hiN))).mono (by omega) le_rfl
      · exact (((f2.mul d6).rnd Rn (small_le (by norm_num) (sumJ i hiN hi))).mono (by omega) le_rfl).neg
      · exact (((f2.mul d7).rnd Rn (small_le (by norm_num) (sumF i hiN hi))).mono (by omega) le_rfl).neg)
  have w1 : Rounded (nL + nD + nR + 2 * N + 4) (gradNorthSize N G T B) (gradNorth N g h D R x) v.1 :=
    v2.mono (by omega) le_rfl
  have w3 : Rounded (nL + nP + nR + 2 * N + 5) (gradUpSize N isInternal G Q B)
      (gradUp N isInternal g h P R x) v.2.2 := by
    refine Eq.mp ?_ (v4.mono (m := nL + nP + nR + 2 * N + 5) (by omega) le_rfl)
    unfold gradUpSize gradUp
    rw [← Finset.sum_neg_distrib]
    simp only [← Finset.sum_mul, idr_factor]
    congr 1
    · exact Finset.sum_congr rfl (fun i _ => by ring)
    · exact Finset.sum_congr rfl (fun i _ => by ring)
  have w2 : 1 ≤ N → 1e-10 ≤ |cos elv| → Rounded (nL + nP + nR + 2 * N + 6) (gradEastSize N G Q B / |cos elv|)
        (gradEast N g h P R x / cos elv) (rnd (v.2.1 / cos elv)) := by
    intro hN hcl
    have hcp : 0 < |cos elv| := lt_of_lt_of_le (by norm_num) hcl
    have e : gradEast N g h P R x = ∑ i ∈ Finset.range (N + 1), -(R i * ∑ j ∈ Finset.range (i + 1),
        (g i j * Real.sin (j * x) - h i j * Real.cos (j * x)) * P i j * j) := by
      unfold gradEast
      refine Finset.sum_congr rfl (fun i _ => ?_)
      rw [← mul_neg, ← Finset.sum_neg_distrib]
      congr 1
      exact Finset.sum_congr rfl (fun j _ => by ring)
    have hM : 2 ^ (-900 : ℤ) ≤ gradEastSize N G Q B := by
      refine (sumJ 1 hN le_rfl).trans ?_
      refine Finset.single_le_sum (f := fun i => B i * ∑ j ∈ Finset.range (i + 1), 2 * G i j * Q i j * (j : ℝ))
        (fun i hi => ?_) (Finset.mem_range.mpr (by omega))
      have hi' : i ≤ N := by
        have := Finset.mem_range.mp hi
        omega
      rcases Nat.eq_zero_or_pos i with rfl | hi1
      · simp
      · exact le_trans (by positivity) (sumJ i hi' hi1)
    have hM2 : 2 ^ (-1021 : ℤ) ≤ gradEastSize N G Q B / |cos elv| := by
      rw [le_div_iff₀ hcp]
      refine (mul_le_mul_of_nonneg_left hcos (by positivity)).trans ?_
      refine le_trans ?_ hM
      rw [← zpow_add_one₀ (by norm_num)]
      exact zpow_le_zpow_right₀ (by norm_num) (by norm_num)
    rw [e] at *
    have hq : Rounded 0 (1 / |cos elv|) (1 / cos elv) (1 / cos elv) :=
      Rounded.exact (by rw [abs_div, abs_one])
    have := v3.mul hq
    simp only [mul_one_div, add_zero] at this
    exact (this.rnd Rn hM2).mono (by omega) le_rfl
  have a1' : coef[0]? = some (g 0 0, h 0 0) := by simpa using a1
  have run : evalDvF rnd sin cos sqrt (fun y => decide (|y| < 1e-10)) N elv coef lcs lp ldp rrp isInternal =
      fixPoleF rnd sin cos sqrt (fun y => decide (|y| < 1e-10)) N elv coef lcs rrp
        ⟨v.1, rnd (v.2.1 / cos elv), v.2.2⟩ := by
    unfold evalDvF
    simp only [rd, a1', b1, Option.bind_eq_bind, Option.bind_some]
    simp only [hbody, rd, Option.bind_eq_bind] at v1
    rw [v1]
    rfl
  rw [run]
  unfold fixPoleF
  by_cases hs : N > 0 ∧ (decide (|cos elv| < 1e-10)) = true
  · rw [if_pos hs]
    obtain ⟨az, haz⟩ := pole_defined (rnd := rnd) hs.1 hc hl hr sin sqrt elv
    refine ⟨⟨v.1, az, v.2.2⟩, by rw [haz]; rfl, w1, w3, fun _ hcl => ?_⟩
    exact absurd (of_decide_eq_true hs.2) (not_lt.mpr hcl)
  · rw [if_neg hs]
    exact ⟨_, rfl, w1, w3, w2⟩

/-- C85: without rounding the sums are those of the exact model. -/
theorem C85_exact {K : Type} [Field K] (sin cos sqrt : K → K) (small : K → Bool) (N : Nat) (elv r : K)
    (coef lcs : List (K × K)) (lp ldp rrp : List K) (isInternal : Bool) :
    evalVF id N r coef lcs lp rrp = evalV N r coef lcs lp rrp ∧
    evalDvF id sin cos sqrt small N elv coef lcs lp ldp rrp isInternal =
      evalDv sin cos sqrt small N elv coef lcs lp ldp rrp isInternal :=
  ⟨rfl, rfl⟩

/-- Radial function of the degree `k`. -/
noncomputable def radialExact (isInternal : Bool) (a r : ℝ) (k : Nat) : ℝ :=
  if isInternal then (a / r) ^ ((k : Int) + 2) else (r / a) ^ ((k : Int) - 1)

/-- C85: the tables of `loncossin` and of `relradpow` are accurate enough. -/
theorem C85_tables {rnd cos sin : ℝ → ℝ} (Rn : Nearest rnd)
    (hcos : ∀ x, |cos x - Real.cos x| ≤ 2 ^ (-53 : ℤ)) (hsin : ∀ x, |sin x - Real.sin x| ≤ 2 ^ (-53 : ℤ))
    (b1 : List (ℝ × ℝ)) (b2 : List ℝ) (lon r a : ℝ) {N nL : Nat} (fast isInternal : Bool)
    (h1 : b1.length = N + 1) (h2 : b2.length = N + 1) (hN : N < 2 ^ 31) (ha : 0 < a) (hr : 0 < r)
    (hnL : N * (10 + 6 * |lon * (Real.pi / 180)|) + 1 ≤ nL)
    (hR : ∀ k ≤ N, 2 ^ (-300 : ℤ) ≤ radialExact isInternal a r k)
    (hra : 2 ^ (-1020 : ℤ) ≤ r / a) (har : 2 ^ (-1020 : ℤ) ≤ a / r) :
    ∃ lcs rrp, loncossinF rnd cos sin Real.pi b1 lon N fast = some (some lcs) ∧
      relradpowF rnd b2 r N a isInternal = some (some rrp) ∧
      HoldsCs N nL lcs (lon * (Real.pi / 180)) ∧
      HoldsRad N (4 * N + 6) rrp (radialExact isInternal a r) (radialExact isInternal a r) := by
  obtain ⟨lcs, l1, -, l3⟩ := C84_loncossin Rn hcos hsin b1 lon N fast h1 hN
  obtain ⟨rrp, r1, -, r3⟩ := C84_radial Rn b2 r a N isInternal h2 ha hr hN
  refine ⟨lcs, rrp, l1, r1, ?_, ?_⟩
  · intro j hj
    obtain ⟨c, s, e1, e2, e3⟩ := l3 j hj
    have hb : ((j : ℝ) * (10 + 6 * |lon * (Real.pi / 180)|) + 1) * 2 ^ (-53 : ℤ) ≤ nL * 2 ^ (-53 : ℤ) * 1 := by
      rw [mul_one]
      refine mul_le_mul_of_nonneg_right (le_trans ?_ hnL) (by positivity)
      have : (j : ℝ) ≤ N := by exact_mod_cast hj
      have : (j : ℝ) * (10 + 6 * |lon * (Real.pi / 180)|) ≤ N * (10 + 6 * |lon * (Real.pi / 180)|) :=
        mul_le_mul_of_nonneg_right this (by positivity)
      linarith
    exact ⟨c, s, e1, Rounded.of_abs (Real.abs_cos_le_one _) (e2.trans hb),
      Rounded.of_abs (Real.abs_sin_le_one _) (e3.trans hb)⟩
  · intro i hi
    obtain ⟨v, e1, e2⟩ := r3 i hi
    have hRi := hR i hi
    have e3 := (e2 (radialExact isInternal a r i) rfl
      ((zpow_le_zpow_right₀ (by norm_num) (by norm_num)).trans hRi) hra har).1
    have h0 : 0 ≤ radialExact isInternal a r i := le_trans (by positivity) hRi
    refine ⟨v, e1, Rounded.of_abs (by rw [abs_of_nonneg h0]) (e3.trans ?_), hRi⟩
    refine mul_le_mul_of_nonneg_right ?_ h0
    rw [show (2 : ℝ) ^ (-52 : ℤ) = 2 * 2 ^ (-53 : ℤ) by norm_num, ← mul_assoc]
    refine mul_le_mul_of_nonneg_right ?_ (by positivity)
    have : (i : ℝ) ≤ N := by exact_mod_cast hi
    push_cast
    linarith

/-- C85: the potential by `spharpot` from the tables of `loncossin` and of `relradpow`: with
functions of the latitude which are accurate up to `nP` roundings the error is at most
`(nL + nP + 6N + 11) 2^-52` of the sum of the sizes of the terms. -/
theorem C85_computed {rnd cos sin : ℝ → ℝ} (Rn : Nearest rnd)
    (hcos : ∀ x, |cos x - Real.cos x| ≤ 2 ^ (-53 : ℤ)) (hsin : ∀ x, |sin x - Real.sin x| ≤ 2 ^ (-53 : ℤ))
    (b1 : List (ℝ × ℝ)) (b2 : List ℝ) (lon r a : ℝ) {N nL nP : Nat} (fast isInternal : Bool)
    (h1 : b1.length = N + 1) (h2 : b2.length = N + 1) (hN : N < 2 ^ 31) (ha : 0 < a)
    (hr : 2 ^ (-100 : ℤ) ≤ r) (hnL : N * (10 + 6 * |lon * (Real.pi / 180)|) + 1 ≤ nL)
    (hR : ∀ k ≤ N, 2 ^ (-300 : ℤ) ≤ radialExact isInternal a r k)
    (hra : 2 ^ (-1020 : ℤ) ≤ r / a) (har : 2 ^ (-1020 : ℤ) ≤ a / r)
    {coef : List (ℝ × ℝ)} {lp : List ℝ} {g h G P Q : Nat → Nat → ℝ} (hc : HoldsCoef N coef g h G)
    (hp : HoldsTri N nP lp P Q) (h00 : P 0 0 = 1) (hn : nL + nP + 6 * N + 11 ≤ 2 ^ 40) :
    ∃ lcs rrp v, loncossinF rnd cos sin Real.pi b1 lon N fast = some (some lcs) ∧
      relradpowF rnd b2 r N a isInternal = some (some rrp) ∧ evalVF rnd N r coef lcs lp rrp = some v ∧
      |v - potential N r g h P (radialExact isInternal a r) (lon * (Real.pi / 180))| ≤
        ((nL + nP + 6 * N + 11 : Nat) : ℝ) * 2 ^ (-52 : ℤ) *
          potentialSize N r G Q (radialExact isInternal a r) := by
  obtain ⟨lcs, rrp, e1, e2, e3, e4⟩ := C85_tables Rn hcos hsin b1 b2 lon r a fast isInternal h1 h2 hN ha
    (lt_of_lt_of_le (by positivity) hr) hnL hR hra har
  obtain ⟨v, e5, e6⟩ := C85_potential Rn hc e3 hp e4 h00 hr
  exact ⟨lcs, rrp, v, e1, e2, e5, (e6.mono (m := nL + nP + 6 * N + 11) (by omega) le_rfl).le hn⟩

-- an axial dipole at the equator of the reference sphere: all the hypotheses are met
example : ∃ rnd cos sin, Nearest rnd ∧ ∃ lcs rrp v,
    loncossinF rnd cos sin Real.pi [(7, 7), (7, 7)] 90 1 true = some (some lcs) ∧
    relradpowF rnd [7, 7] 2 1 1 true = some (some rrp) ∧
    evalVF rnd 1 2 [(0, 0), (-30000, 0), (-1500, 5000)] lcs [1, 0, 1] rrp = some v ∧
    |v - 2 * (1 / 8 * 5000)| ≤ 1 / 1000000 := by
  obtain ⟨rnd, R⟩ := Nearest.exists
  have hone : ∀ y : ℝ, |y| ≤ 1 → |rnd y - y| ≤ 2 ^ (-53 : ℤ) := by
    intro y hy
    refine (R.err (k := 0) (by norm_num) (by simpa using hy)).trans ?_
    exact zpow_le_zpow_right₀ (by norm_num) (by norm_num)
  have hs : ∀ {y : ℝ} {k : ℤ}, k ≤ -10 → 2 ^ (-10 : ℤ) ≤ y → 2 ^ k ≤ y :=
    fun hk hy => (zpow_le_zpow_right₀ (by norm_num) hk).trans hy
  have hx : (90 : ℝ) * (Real.pi / 180) = Real.pi / 2 := by ring
  obtain ⟨lcs, rrp, v, e1, e2, e3, e4⟩ := C85_computed (cos := fun y => rnd (Real.cos y))
    (sin := fun y => rnd (Real.sin y)) R (fun y => hone _ (Real.abs_cos_le_one y))
    (fun y => hone _ (Real.abs_sin_le_one y)) [(7, 7), (7, 7)] [7, 7] 90 2 1 (N := 1) (nL := 23) (nP := 0) true true
    rfl rfl (by norm_num) (by norm_num) (hs (by norm_num) (by norm_num))
    (by
      rw [hx, abs_of_pos (by positivity)]
      push_cast
      linarith [Real.pi_lt_four])
    (by
      intro k hk
      refine hs (by norm_num) ?_
      have : k = 0 ∨ k = 1 := by omega
      rcases this with rfl | rfl <;> norm_num [radialExact])
    (hs (by norm_num) (by norm_num)) (hs (by norm_num) (by norm_num))
    (coef := [(0, 0), (-30000, 0), (-1500, 5000)]) (lp := [1, 0, 1])
    (g := fun i j => if i = 0 then 0 else if j = 0 then -30000 else -1500)
    (h := fun i j => if i = 1 ∧ j = 1 then 5000 else 0) (G := fun _ _ => 30000)
    (P := fun i j => if i = 1 ∧ j = 0 then 0 else 1) (Q := fun _ _ => 1)
    (by
      intro i hi j hj
      have hG : (2 : ℝ) ^ (-300 : ℤ) ≤ 30000 := hs (by norm_num) (by norm_num)
      have : (i = 0 ∧ j = 0) ∨ (i = 1 ∧ j = 0) ∨ (i = 1 ∧ j = 1) := by omega
      rcases this with ⟨rfl, rfl⟩ | ⟨rfl, rfl⟩ | ⟨rfl, rfl⟩ <;>
        refine ⟨by simp, by norm_num, by norm_num, hG⟩)
    (by
      intro i hi j hj
      have hG : (2 : ℝ) ^ (-300 : ℤ) ≤ 1 := hs (by norm_num) (by norm_num)
      have : (i = 0 ∧ j = 0) ∨ (i = 1 ∧ j = 0) ∨ (i = 1 ∧ j = 1) := by omega
      rcases this with ⟨rfl, rfl⟩ | ⟨rfl, rfl⟩ | ⟨rfl, rfl⟩ <;>
        exact ⟨_, by simp, Rounded.exact (by norm_num), hG⟩)
    (by simp) (by norm_num)
  refine ⟨rnd, _, _, R, lcs, rrp, v, e1, e2, e3, ?_⟩
  have ep : potential 1 2 (fun i j => if i = 0 then 0 else if j = 0 then -30000 else -1500)
      (fun i j => if i = 1 ∧ j = 1 then 5000 else 0) (fun i j => if i = 1 ∧ j = 0 then 0 else 1)
      (radialExact true 1 2) (90 * (Real.pi / 180)) = 2 * (1 / 8 * 5000) := by
    rw [hx]
    norm_num [potential, Finset.sum_range_succ, radialExact]
  have es : potentialSize 1 2 (fun _ _ => 30000) (fun _ _ => 1) (radialExact true 1 2) = 60000 := by
    norm_num [potentialSize, Finset.sum_range_succ, radialExact]
  rw [ep, es] at e4
  refine e4.trans ?_
  norm_num

-- the gradient of the same dipole from exact tables, at the equator and the longitude 90
example : ∃ rnd, Nearest rnd ∧ ∃ v,
    evalDvF rnd (fun _ => 0) (fun _ => 1) id (fun y => decide (|y| < 1e-10)) 1 0
      [(0, 0), (-30000, 0), (-1500, 5000)] [(1, 0), (0, 1)] [1, 0, 1] [0, 1, 0] [1 / 4, 1 / 8] true = some v ∧
    |v.el - 1 / 8 * -30000| ≤ 1 / 1000000 ∧ |v.az - 1 / 8 * 1500| ≤ 1 / 1000000 := by
  obtain ⟨rnd, R⟩ := Nearest.exists
  have hs : ∀ {y : ℝ} {k : ℤ}, k ≤ -10 → 2 ^ (-10 : ℤ) ≤ y → 2 ^ k ≤ y :=
    fun hk hy => (zpow_le_zpow_right₀ (by norm_num) hk).trans hy
  have h1 : (2 : ℝ) ^ (-300 : ℤ) ≤ 1 := hs (by norm_num) (by norm_num)
  obtain ⟨v, e1, e2, -, e4⟩ := C85_gradient R (N := 1) (nL := 0) (nP := 0) (nD := 0) (nR := 0) (x := Real.pi / 2)
    (coef := [(0, 0), (-30000, 0), (-1500, 5000)]) (lcs := [(1, 0), (0, 1)]) (lp := [1, 0, 1]) (ldp := [0, 1, 0])
    (rrp := [1 / 4, 1 / 8])
    (g := fun i j => if i = 0 then 0 else if j = 0 then -30000 else -1500)
    (h := fun i j => if i = 1 ∧ j = 1 then 5000 else 0) (G := fun _ _ => 30000)
    (P := fun i j => if i = 1 ∧ j = 0 then 0 else 1) (Q := fun _ _ => 1)
    (D := fun i j => if i = 1 ∧ j = 0 then 1 else 0) (T := fun _ _ => 1)
    (R := fun i => if i = 0 then 1 / 4 else 1 / 8) (B := fun _ => 1)
    (by
      intro i hi j hj
      have hG : (2 : ℝ) ^ (-300 : ℤ) ≤ 30000 := hs (by norm_num) (by norm_num)
      have : (i = 0 ∧ j = 0) ∨ (i = 1 ∧ j = 0) ∨ (i = 1 ∧ j = 1) := by omega
      rcases this with ⟨rfl, rfl⟩ | ⟨rfl, rfl⟩ | ⟨rfl, rfl⟩ <;>
        refine ⟨by simp, by norm_num, by norm_num, hG⟩)
    (by
      intro j hj
      have : j = 0 ∨ j = 1 := by omega
      rcases this with rfl | rfl
      · exact ⟨1, 0, by simp, by simpa using Rounded.exact (M := 1) (x := 1) (by norm_num),
          by simpa using Rounded.exact (M := 1) (x := 0) (by norm_num)⟩
      · exact ⟨0, 1, by simp, by simpa using Rounded.exact (M := 1) (x := 0) (by norm_num),
          by simpa using Rounded.exact (M := 1) (x := 1) (by norm_num)⟩)
    (by
      intro i hi j hj
      have : (i = 0 ∧ j = 0) ∨ (i = 1 ∧ j = 0) ∨ (i = 1 ∧ j = 1) := by omega
      rcases this with ⟨rfl, rfl⟩ | ⟨rfl, rfl⟩ | ⟨rfl, rfl⟩ <;>
        exact ⟨_, by simp, Rounded.exact (by norm_num), h1⟩)
    (by
      intro i hi j hj
      have : (i = 0 ∧ j = 0) ∨ (i = 1 ∧ j = 0) ∨ (i = 1 ∧ j = 1) := by omega
      rcases this with ⟨rfl, rfl⟩ | ⟨rfl, rfl⟩ | ⟨rfl, rfl⟩ <;>
        exact ⟨_, by simp, Rounded.exact (by norm_num), h1⟩)
    (by
      intro i hi
      have : i = 0 ∨ i = 1 := by omega
      rcases this with rfl | rfl <;> exact ⟨_, by simp, Rounded.exact (by norm_num), h1⟩)
    (by simp) (by simp) (fun _ => 0) (fun _ => 1) id 0 true (by norm_num)
  refine ⟨rnd, R, v, e1, ?_, ?_⟩
  · have := e2.le (by norm_num)
    norm_num [gradNorth, gradNorthSize, Finset.sum_range_succ] at this ⊢
    exact this.trans (by norm_num)
  · have := (e4 le_rfl (by norm_num)).le (by norm_num)
    norm_num [gradEast, gradEastSize, Finset.sum_range_succ] at this ⊢
    exact this.trans (by norm_num)

end Verif.Props
