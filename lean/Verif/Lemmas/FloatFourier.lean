import Verif.Model.FloatFourier
import Verif.Lemmas.FloatSeries
import Verif.Lemmas.Fourier
import Verif.Spec.RoundingError

set_option linter.unusedSectionVars false

namespace Verif.FloatFourier

open Verif.Buf Verif.Fourier Verif.FloatSeries Verif.Spec

/-- Within `n` roundings of the cosine and sine, relative to `M`. -/
def Near (n : Nat) (M a : ℝ) (v : ℝ × ℝ) : Prop :=
  Rounded n M (Real.cos a) v.1 ∧ Rounded n M (Real.sin a) v.2

variable {rnd cos sin : ℝ → ℝ}

theorem cis_pow' (x : ℝ) (k : Nat) :
    (⟨Real.cos x, Real.sin x⟩ : ℂ) ^ k = ⟨Real.cos (k * x), Real.sin (k * x)⟩ := by
  induction k with
  | zero => simp; rfl
  | succ k ih =>
    rw [pow_succ, ih]
    have e : ((k + 1 : Nat) : ℝ) * x = k * x + x := by push_cast; ring
    rw [e]
    refine Complex.ext ?_ ?_
    · rw [Complex.mul_re, Real.cos_add]
    · rw [Complex.mul_im, Real.sin_add]
      simp only
      ring

/-- The recurrence of the cosines and sines of a rounded argument. -/
theorem cs_near (R : Nearest rnd)
    (hcos : ∀ x, |cos x - Real.cos x| ≤ 2 ^ (-53 : ℤ)) (hsin : ∀ x, |sin x - Real.sin x| ≤ 2 ^ (-53 : ℤ))
    (x : ℝ) {k n : Nat} (hk : k < 2 ^ 31) (hn : k * (10 + |x|) ≤ n) :
    Near n 1 (k * x) (if k = 0 then (1, 0) else csSeq rnd (cos (rnd x)) (sin (rnd x)) (k - 1)) := by
  rcases k with _ | k
  · simp only [if_true, Nat.cast_zero, zero_mul]
    refine ⟨?_, ?_⟩
    · rw [Real.cos_zero]
      exact (Rounded.exact (by simp)).mono (Nat.zero_le _) le_rfl
    · rw [Real.sin_zero]
      exact (Rounded.exact (by simp)).mono (Nat.zero_le _) le_rfl
  rw [if_neg (by omega), Nat.add_sub_cancel]
  set y := rnd x with hy
  have hX := abs_nonneg x
  have ha : |y - x| ≤ 2 ^ (-53 : ℤ) * |x| + 2 ^ (-53 : ℤ) / 8 := by
    refine (R.rel x).trans (add_le_add le_rfl ?_)
    rw [show (2 : ℝ) ^ (-53 : ℤ) / 8 = 2 ^ (-56 : ℤ) by norm_num]
    exact zpow_le_zpow_right₀ (by norm_num) (by norm_num)
  have hz : ‖(⟨Real.cos y, Real.sin y⟩ : ℂ)‖ = 1 := by
    rw [Complex.norm_def, Complex.normSq_apply, ← sq, ← sq, Real.cos_sq_add_sin_sq, Real.sqrt_one]
  have hw : ‖(⟨cos y, sin y⟩ : ℂ) - ⟨Real.cos y, Real.sin y⟩‖ ≤ 2 * 2 ^ (-53 : ℤ) := by
    refine (Complex.norm_le_abs_re_add_abs_im _).trans ?_
    simp only [Complex.sub_re, Complex.sub_im]
    linarith [hcos y, hsin y]
  have he := csSeq_err R hz hw k
  rw [cis_pow'] at he
  have hbd := he.trans (cs_bound (show k + 1 ≤ 2 ^ 31 by omega))
  have r1 := (Complex.abs_re_le_norm _).trans hbd
  have r2 := (Complex.abs_im_le_norm _).trans hbd
  simp only [Complex.sub_re, Complex.sub_im] at r1 r2
  have c1 := Real.abs_cos_sub_cos_le (((k + 1 : Nat) : ℝ) * y) ((k + 1 : Nat) * x)
  have c2 := Real.abs_sin_sub_sin_le (((k + 1 : Nat) : ℝ) * y) ((k + 1 : Nat) * x)
  have d1 := abs_add_le ((csSeq rnd (cos y) (sin y) k).1 - Real.cos (((k + 1 : Nat) : ℝ) * y))
    (Real.cos (((k + 1 : Nat) : ℝ) * y) - Real.cos ((k + 1 : Nat) * x))
  have d2 := abs_add_le ((csSeq rnd (cos y) (sin y) k).2 - Real.sin (((k + 1 : Nat) : ℝ) * y))
    (Real.sin (((k + 1 : Nat) : ℝ) * y) - Real.sin ((k + 1 : Nat) * x))
  rw [sub_add_sub_cancel] at d1 d2
  have hk0 : (0 : ℝ) ≤ ((k + 1 : Nat) : ℝ) := by positivity
  have g2 : |((k + 1 : Nat) : ℝ) * y - (k + 1 : Nat) * x| ≤
      (k + 1 : Nat) * (2 ^ (-53 : ℤ) * |x| + 2 ^ (-53 : ℤ) / 8) := by
    rw [← mul_sub, abs_mul, abs_of_nonneg hk0]
    exact mul_le_mul_of_nonneg_left ha hk0
  refine ⟨Rounded.of_abs (Real.abs_cos_le_one _) ?_, Rounded.of_abs (Real.abs_sin_le_one _) ?_⟩
  all_goals
    generalize ((k + 1 : Nat) : ℝ) = m at *
    have hu : (0 : ℝ) < 2 ^ (-53 : ℤ) := by positivity
    have hnu := mul_le_mul_of_nonneg_right hn hu.le
    have hku : (0 : ℝ) ≤ m * 2 ^ (-53 : ℤ) := by positivity
    generalize (2 : ℝ) ^ (-53 : ℤ) = u at *
    nlinarith

/-- The values of the table of both signs. -/
noncomputable def negW (g : Nat → ℝ × ℝ) (nmin : Int) (k : Nat) : ℝ × ℝ :=
  ((g (nmin + (k : Int)).natAbs).1,
    if nmin + (k : Int) < 0 then -(g (nmin + (k : Int)).natAbs).2 else (g (nmin + (k : Int)).natAbs).2)

/-- The values of the table of the products. -/
noncomputable def twoW (rnd : ℝ → ℝ) (g1 g2 : Nat → ℝ × ℝ) (m k : Nat) : ℝ × ℝ :=
  (rnd (rnd ((g1 (k / m)).1 * (g2 (k % m)).1) - rnd ((g1 (k / m)).2 * (g2 (k % m)).2)),
    rnd (rnd ((g1 (k / m)).1 * (g2 (k % m)).2) + rnd ((g1 (k / m)).2 * (g2 (k % m)).1)))

/-- The table of both signs. -/
theorem neg_near (b pos : List (ℝ × ℝ)) (nmin nmax : Int) (x : ℝ) (N n : Nat) (g : Nat → ℝ × ℝ)
    (hpos : Holds pos (fun j => j ≤ N) g) (hg : ∀ j ≤ N, Near n 1 (j * x) (g j))
    (h1 : nmin.natAbs ≤ N) (h2 : nmax.natAbs ≤ N) (hb : b.length = (nmax - nmin + 1).toNat) :
    fsCosSinNeg b pos nmin nmax = some ((List.range (nmax - nmin + 1).toNat).map (negW g nmin)) ∧
      ∀ k < (nmax - nmin + 1).toNat, Near n 1 ((nmin + k : Int) * x) (negW g nmin k) := by
  set w : Nat → ℝ × ℝ := negW g nmin with hw
  unfold fsCosSinNeg
  obtain ⟨s, hs, hP⟩ := forUp_inv
    (fun i (s : List (ℝ × ℝ)) => s.length = b.length ∧ Holds s (fun j => j < i) w)
    (fun k b => do
      let i : Int := nmin + k
      let v ← rd pos i.natAbs
      wrI b (i - nmin) (v.1, if i < 0 then -v.2 else v.2)) (nmax - nmin + 1).toNat 0 b
    ⟨rfl, fun j hj => by omega⟩
    (by
      rintro k bb _ hk ⟨hl, hH⟩
      have hle : (nmin + (k : Int)).natAbs ≤ N := by omega
      have hr := hpos.rd hle
      refine ⟨bb.set k (w k), ?_, by simpa using hl, hH.set (by omega) rfl (fun j hj => by omega)⟩
      simp only [Option.bind_eq_bind, hr, Option.bind_some]
      have e : nmin + (k : Int) - nmin = k := by omega
      rw [e]
      unfold wrI
      simp only [Int.natCast_nonneg, if_true, Int.toNat_natCast]
      rw [wr_eq _ (by omega)]
      rfl)
  refine ⟨by rw [hs]; exact congrArg some (Holds.eq (by rw [hP.1, hb]) (hP.2.mono (fun j hj => by omega))),
    fun k hk => ?_⟩
  have hle : (nmin + (k : Int)).natAbs ≤ N := by omega
  have hn := hg _ hle
  simp only [hw, negW]
  generalize nmin + (k : Int) = z at *
  by_cases hz : z < 0
  · have : ((z.natAbs : Nat) : ℝ) = -(z : ℝ) := by
      have h3 : ((z.natAbs : Nat) : Int) = -z := by omega
      rw [← Int.cast_natCast, h3, Int.cast_neg]
    rw [this, neg_mul] at hn
    obtain ⟨n1, n2⟩ := hn
    rw [Real.cos_neg] at n1
    rw [Real.sin_neg] at n2
    rw [if_pos hz]
    refine ⟨n1, ?_⟩
    have := n2.neg
    rwa [neg_neg] at this
  · have : ((z.natAbs : Nat) : ℝ) = (z : ℝ) := by
      have h3 : ((z.natAbs : Nat) : Int) = z := by omega
      rw [← Int.cast_natCast, h3]
    rw [this] at hn
    rw [if_neg hz]
    exact hn

/-- The products of two pairs. -/
theorem two_near (R : Nearest rnd) {n m : Nat} {a c : ℝ} {p q : ℝ × ℝ} (hp : Near n 1 a p) (hq : Near m 1 c q) :
    Near (n + m + 2) 2 (a + c)
      (rnd (rnd (p.1 * q.1) - rnd (p.2 * q.2)), rnd (rnd (p.1 * q.2) + rnd (p.2 * q.1))) := by
  have s1 : (2 : ℝ) ^ (-1021 : ℤ) ≤ 1 := zpow_le_one_of_nonpos₀ (by norm_num) (by norm_num)
  have t : ∀ {x x' y y' : ℝ}, Rounded n 1 x x' → Rounded m 1 y y' → Rounded (n + m + 1) 1 (x * y) (rnd (x' * y')) := by
    intro x x' y y' hx hy
    have := hx.mul hy
    rw [mul_one] at this
    exact this.rnd R s1
  have e : (2 : ℝ) = 1 + 1 := by norm_num
  refine ⟨?_, ?_⟩
  · rw [Real.cos_add, e]
    exact ((t hp.1 hq.1).sub (t hp.2 hq.2)).rnd R (by linarith)
  · rw [Real.sin_add, add_comm (Real.sin a * _), e]
    exact ((t hp.1 hq.2).add (t hp.2 hq.1)).rnd R (by linarith)

/-- The table of the products. -/
theorem fsCosSin2dF_spec (R : Nearest rnd) (b : List (ℝ × ℝ)) (n m k l : Nat) (a c : Nat → ℝ) (hb : b.length = n * m)
    {g1 g2 : Nat → ℝ × ℝ} (h1 : ∀ i < n, Near k 1 (a i) (g1 i)) (h2 : ∀ j < m, Near l 1 (c j) (g2 j)) :
    fsCosSin2dF rnd b ((List.range n).map g1) ((List.range m).map g2) n m =
        some ((List.range (n * m)).map (twoW rnd g1 g2 m)) ∧
      ∀ j < n * m, Near (k + l + 2) 2 (a (j / m) + c (j % m)) (twoW rnd g1 g2 m j) := by
  set w : Nat → ℝ × ℝ := twoW rnd g1 g2 m with hw
  unfold fsCosSin2dF
  have hr1 := holds_range g1 n
  have hr2 := holds_range g2 m
  obtain ⟨s, hs, hP⟩ := forBelow_inv
    (fun i (s : List (ℝ × ℝ)) => s.length = b.length ∧ Holds s (fun j => j < i * m) w)
    (fun i b =>
      let istride := i * m
      forBelow 0 m (fun j b => do
        let idx := istride + j
        let p ← rd ((List.range n).map g1) i
        let q ← rd ((List.range m).map g2) j
        wr b idx (rnd (rnd (p.1 * q.1) - rnd (p.2 * q.2)), rnd (rnd (p.1 * q.2) + rnd (p.2 * q.1)))) b) 0 n b
    (by omega) ⟨rfl, fun j hj => by omega⟩
    (by
      rintro i bb _ hin ⟨hl, hH⟩
      obtain ⟨s, hs, hP⟩ := forBelow_inv
        (fun j (s : List (ℝ × ℝ)) => s.length = b.length ∧ Holds s (fun k => k < i * m + j) w)
        (fun j b => do
          let idx := i * m + j
          let p ← rd ((List.range n).map g1) i
          let q ← rd ((List.range m).map g2) j
          wr b idx (rnd (rnd (p.1 * q.1) - rnd (p.2 * q.2)), rnd (rnd (p.1 * q.2) + rnd (p.2 * q.1)))) 0 m bb
        (by omega) ⟨hl, hH.mono (fun j hj => by omega)⟩
        (by
          rintro j b3 _ hjm ⟨hl3, hH3⟩
          have hlt : i * m + j < b.length := by
            rw [hb]
            have : (i + 1) * m ≤ n * m := Nat.mul_le_mul_right m hin
            rw [Nat.add_mul] at this; omega
          refine ⟨b3.set (i * m + j) (w (i * m + j)), ?_, by simpa using hl3, ?_⟩
          · simp only [Option.bind_eq_bind, hr1.rd hin, hr2.rd hjm, Option.bind_some]
            rw [wr_eq _ (by omega)]
            simp only [hw, twoW, div_mul_add i hjm, mod_mul_add i hjm]
          · exact hH3.set (by omega) rfl (fun k hk => by omega))
      exact ⟨s, hs, hP.1, hP.2.mono (fun k hk => by rw [Nat.add_mul] at hk; omega)⟩)
  refine ⟨by rw [hs]; exact congrArg some (Holds.eq (by rw [hP.1, hb]) hP.2), fun j hj => ?_⟩
  have hm : 0 < m := by
    rcases Nat.eq_zero_or_pos m with rfl | h
    · omega
    · exact h
  exact two_near R (h1 _ ((Nat.div_lt_iff_lt_mul hm).mpr hj)) (h2 _ (Nat.mod_lt _ hm))

/-- The sum over the table. -/
theorem fsEval2dF_spec (R : Nearest rnd) (ab : List (ℝ × ℝ)) (n m k : Nat) (A w : Nat → ℝ × ℝ) (G th : Nat → ℝ)
    (hab : Holds ab (fun k => k < n * m) A) (hG : ∀ j < n * m, |(A j).1| ≤ G j ∧ |(A j).2| ≤ G j ∧ 2 ^ (-1021 : ℤ) ≤ G j)
    (hcs : ∀ j < n * m, Near k 2 (th j) (w j)) :
    ∃ v, fsEval2dF rnd ab ((List.range (n * m)).map w) n m = some v ∧
      Rounded (k + 2 + n * m) (∑ j ∈ Finset.range (n * m), 4 * G j)
        (∑ j ∈ Finset.range (n * m), ((A j).1 * Real.cos (th j) + (A j).2 * Real.sin (th j))) v := by
  unfold fsEval2dF
  obtain ⟨s, hs, hP⟩ := forBelow_inv
    (fun i (s : ℝ) => Rounded (k + 2 + i) (∑ j ∈ Finset.range i, 4 * G j)
      (∑ j ∈ Finset.range i, ((A j).1 * Real.cos (th j) + (A j).2 * Real.sin (th j))) s)
    (fun i f => do
      let a ← rd ab i
      let c ← rd ((List.range (n * m)).map w) i
      return rnd (f + rnd (rnd (a.1 * c.1) + rnd (a.2 * c.2)))) 0 (n * m) 0 (by omega)
    (by
      simp only [Finset.range_zero, Finset.sum_empty]
      exact (Rounded.exact (by simp)).mono (Nat.zero_le _) le_rfl)
    (by
      rintro i f _ hin hf
      obtain ⟨n1, n2⟩ := hcs i hin
      obtain ⟨g1, g2, g3⟩ := hG i hin
      refine ⟨_, by simp only [Option.bind_eq_bind, hab.rd hin, (holds_range w (n * m)).rd hin, Option.bind_some]; rfl, ?_⟩
      rw [Finset.sum_range_succ, Finset.sum_range_succ]
      have hp : (0 : ℝ) < 2 ^ (-1021 : ℤ) := by positivity
      have t : ∀ {x y y' : ℝ}, |x| ≤ G i → Rounded k 2 y y' → Rounded (k + 1) (2 * G i) (x * y) (rnd (x * y')) := by
        intro x y y' hx hy
        have := (Rounded.exact hx).mul hy
        rw [zero_add, mul_comm (G i)] at this
        exact this.rnd R (by linarith)
      have t2 := ((t g1 n1).add (t g2 n2)).rnd R (by linarith)
      have t3 := t2.mono (m := k + 2 + i) (M' := 4 * G i) (by omega) (by linarith)
      have := (hf.add t3).rnd R (by linarith [hf.nonneg])
      rw [show k + 2 + (i + 1) = k + 2 + i + 1 by omega]
      exact this)
  exact ⟨s, hs, hP⟩

/-- The values of the table `cos_sin_12` for a pair of times. -/
noncomputable def tableW (rnd cos sin : ℝ → ℝ) (min1 min2 : Int) (size2 : Nat) (scale1 scale2 t1 t2 : ℝ) :
    Nat → ℝ × ℝ :=
  twoW rnd
    (negW (fun j => if j = 0 then (1, 0) else csSeq rnd (cos (rnd (t1 * scale1))) (sin (rnd (t1 * scale1))) (j - 1)) min1)
    (negW (fun j => if j = 0 then (1, 0) else csSeq rnd (cos (rnd (t2 * scale2))) (sin (rnd (t2 * scale2))) (j - 1)) min2)
    size2

theorem f2dCosSinF_ok (R : Nearest rnd)
    (hcos : ∀ x, |cos x - Real.cos x| ≤ 2 ^ (-53 : ℤ)) (hsin : ∀ x, |sin x - Real.sin x| ≤ 2 ^ (-53 : ℤ))
    (f : F2D ℝ) (min1 min2 : Int) (size1 size2 : Nat) (scale1 scale2 t1 t2 : ℝ) {n1 n2 : Nat}
    (hf : F2DOk f min1 min2 size1 size2 scale1 scale2)
    (h : (min2.natAbs : Int) ≤ maxAbsDegree min1 (min1 + size1 - 1) min2 (min2 + size2 - 1))
    (hd1 : max min1.natAbs (min1 + size1 - 1).natAbs < 2 ^ 31)
    (hd2 : max min2.natAbs (min2 + size2 - 1).natAbs < 2 ^ 31)
    (hn1 : (max min1.natAbs (min1 + size1 - 1).natAbs : Nat) * (10 + |t1 * scale1|) ≤ n1)
    (hn2 : (max min2.natAbs (min2 + size2 - 1).natAbs : Nat) * (10 + |t2 * scale2|) ≤ n2) :
    ∃ f', f2dCosSinF rnd cos sin f t1 t2 = some f' ∧
      F2DOk f' min1 min2 size1 size2 scale1 scale2 ∧
      f'.cs12 = (List.range (size1 * size2)).map (tableW rnd cos sin min1 min2 size2 scale1 scale2 t1 t2) ∧
      ∀ k < size1 * size2, Near (n1 + n2 + 2) 2 (angle min1 min2 size2 scale1 scale2 t1 t2 k)
        (tableW rnd cos sin min1 min2 size2 scale1 scale2 t1 t2 k) := by
  have hmin1 := hf.min1
  have hmax1 := hf.max1
  have hmin2 := hf.min2
  have hmax2 := hf.max2
  have hm : ∀ z : Int, z = min1 ∨ z = min1 + size1 - 1 ∨ z = min2 ∨ z = min2 + size2 - 1 →
      z.natAbs < f.tmp.length := by
    intro z hz
    rw [hf.tmp]
    simp only [maxAbsDegree] at h ⊢
    omega
  have near : ∀ {x : ℝ} {D n : Nat}, D < 2 ^ 31 → D * (10 + |x|) ≤ (n : ℝ) → ∀ j ≤ D,
      Near n 1 (j * x) (if j = 0 then (1, 0) else csSeq rnd (cos (rnd x)) (sin (rnd x)) (j - 1)) := by
    intro x D n hD hn j hj
    refine cs_near R hcos hsin x (by omega) (le_trans ?_ hn)
    exact mul_le_mul_of_nonneg_right (by exact_mod_cast hj) (by positivity)
  obtain ⟨tmp1, ht1, hl1, hH1⟩ := fsCosSinF_spec rnd cos sin f.tmp (max min1.natAbs (min1 + size1 - 1).natAbs)
    (rnd (t1 * scale1)) (by
      have := hm min1 (by omega); have := hm (min1 + size1 - 1) (by omega); omega)
  obtain ⟨hc1, hF1⟩ := neg_near f.cs1 tmp1 min1 (min1 + size1 - 1) (t1 * scale1) _ n1 _ hH1
    (near hd1 hn1) (by omega) (by omega) (by rw [hf.cs1]; omega)
  obtain ⟨tmp2, ht2, hl2, hH2⟩ := fsCosSinF_spec rnd cos sin tmp1 (max min2.natAbs (min2 + size2 - 1).natAbs)
    (rnd (t2 * scale2)) (by
      have := hm min2 (by omega); have := hm (min2 + size2 - 1) (by omega); omega)
  obtain ⟨hc2, hF2⟩ := neg_near f.cs2 tmp2 min2 (min2 + size2 - 1) (t2 * scale2) _ n2 _ hH2
    (near hd2 hn2) (by omega) (by omega) (by rw [hf.cs2]; omega)
  have e1 : (min1 + size1 - 1 - min1 + 1 : Int).toNat = size1 := by omega
  have e2 : (min2 + size2 - 1 - min2 + 1 : Int).toNat = size2 := by omega
  rw [e1] at hF1 hc1
  rw [e2] at hF2 hc2
  obtain ⟨h12, hF⟩ := fsCosSin2dF_spec R f.cs12 size1 size2 n1 n2
    (fun (i : Nat) => ((min1 + i : Int) : ℝ) * (t1 * scale1))
    (fun (j : Nat) => ((min2 + j : Int) : ℝ) * (t2 * scale2)) hf.cs12 hF1 hF2
  unfold f2dCosSinF
  rw [hf.min1, hf.max1, hf.min2, hf.max2, hf.scale1, hf.scale2]
  simp only [Option.bind_eq_bind, ht1, hc1, ht2, hc2, Option.bind_some, e1, e2, h12]
  refine ⟨_, rfl, ⟨rfl, rfl, rfl, rfl, rfl, rfl, ?_, ?_, ?_, ?_⟩, rfl, hF⟩
  · show tmp2.length = _
    rw [hl2, hl1, hf.tmp]
  · simp
  · simp
  · simp

end Verif.FloatFourier
