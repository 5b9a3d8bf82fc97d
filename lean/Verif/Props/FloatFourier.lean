/-
C90: the accuracy of the 2D Fourier series in double precision.
-/
import Verif.Lemmas.FloatFourier
import Verif.Props.Series

namespace Verif.Props

open Verif.Buf Verif.Spec Verif.Fourier Verif.FloatSeries Verif.FloatFourier

/-- C90: without rounding the function is the exact one. -/
theorem C90_exact {K : Type} [Field K] (cos sin : K → K) (junk : Nat → K × K) (times : List (K × K))
    (abs : List (List (K × K))) (size1 size2 : Nat) (min1 min2 : Int) (scale1 scale2 : K) :
    fourier2dF id cos sin junk times abs size1 size2 min1 min2 scale1 scale2 =
      fourier2d cos sin junk times abs size1 size2 min1 min2 scale1 scale2 := by
  unfold fourier2dF fourier2d
  generalize f2dInit junk min1 size1 min2 size2 scale1 scale2 = f
  induction times generalizing f with
  | nil => rfl
  | cons t l ih =>
    obtain ⟨t1, t2⟩ := t
    have e1 : f2dCosSinF id cos sin f t1 t2 = f2dCosSin cos sin f t1 t2 := rfl
    have e2 : ∀ g : F2D K, f2dEvalF id g = f2dEval g := fun g => rfl
    simp only [f2dLoopF, f2dLoop, e1, e2, ih]

/-- The temporary buffer is large enough for the second series. -/
def BufferOk (size1 size2 : Nat) (min1 min2 : Int) : Prop :=
  min2.natAbs ≤ 1 ∨ min2.natAbs ≤ min1.natAbs ∨ min2.natAbs ≤ (min1 + size1 - 1).natAbs ∨
    min2.natAbs ≤ (min2 + size2 - 1).natAbs

/-- The largest wave number of one dimension. -/
def waveNumber (size : Nat) (min : Int) : Nat := max min.natAbs (min + size - 1).natAbs

/-- The size of the terms of the series. -/
noncomputable def fourierSize (ab : List (ℝ × ℝ)) (size1 size2 : Nat) : ℝ :=
  ∑ i ∈ Finset.range size1, ∑ j ∈ Finset.range size2,
    (|(ab.getD (i * size2 + j) (0, 0)).1| + |(ab.getD (i * size2 + j) (0, 0)).2| + 2 ^ (-1021 : ℤ))

/-- The series of the matrix of the coefficients. -/
noncomputable def fourierOf (ab : List (ℝ × ℝ)) (size1 size2 : Nat) (min1 min2 : Int) (x y : ℝ) : ℝ :=
  fourierSum (fun i j => (ab.getD (i * size2 + j) (0, 0)).1) (fun i j => (ab.getD (i * size2 + j) (0, 0)).2)
    size1 size2 min1 min2 x y

theorem f2d_eval_near {rnd : ℝ → ℝ} (R : Nearest rnd) (ab : List (ℝ × ℝ)) (size1 size2 n : Nat) (min1 min2 : Int)
    (scale1 scale2 t1 t2 : ℝ) (w : Nat → ℝ × ℝ) (hab : ab.length = size1 * size2)
    (hw : ∀ k < size1 * size2, Near n 2 (angle min1 min2 size2 scale1 scale2 t1 t2 k) (w k)) :
    ∃ v, fsEval2dF rnd ab ((List.range (size1 * size2)).map w) size1 size2 = some v ∧
      Rounded (n + 2 + size1 * size2) (4 * fourierSize ab size1 size2)
        (fourierOf ab size1 size2 min1 min2 (t1 * scale1) (t2 * scale2)) v := by
  have hp : (0 : ℝ) < 2 ^ (-1021 : ℤ) := by positivity
  obtain ⟨v, h1, h2⟩ := fsEval2dF_spec R ab size1 size2 n (fun k => ab.getD k (0, 0)) w
    (fun k => |(ab.getD k (0, 0)).1| + |(ab.getD k (0, 0)).2| + 2 ^ (-1021 : ℤ)) _
    (fun k hk => ⟨by omega, by simp [show k < ab.length by omega]⟩)
    (fun k _ => by
      have := abs_nonneg (ab.getD k (0, 0)).1
      have := abs_nonneg (ab.getD k (0, 0)).2
      exact ⟨by linarith, by linarith, by linarith⟩) hw
  refine ⟨v, h1, ?_⟩
  rw [← Finset.mul_sum, sum_range_mul, sum_range_mul] at h2
  have e : fourierOf ab size1 size2 min1 min2 (t1 * scale1) (t2 * scale2) =
      ∑ i ∈ Finset.range size1, ∑ j ∈ Finset.range size2,
        ((ab.getD (i * size2 + j) (0, 0)).1 * Real.cos (angle min1 min2 size2 scale1 scale2 t1 t2 (i * size2 + j)) +
          (ab.getD (i * size2 + j) (0, 0)).2 * Real.sin (angle min1 min2 size2 scale1 scale2 t1 t2 (i * size2 + j))) := by
    unfold fourierOf fourierSum
    refine Finset.sum_congr rfl (fun i _ => Finset.sum_congr rfl (fun j hj => ?_))
    have hj' := Finset.mem_range.mp hj
    have e : angle min1 min2 size2 scale1 scale2 t1 t2 (i * size2 + j) =
        (min1 + i) * (t1 * scale1) + (min2 + j) * (t2 * scale2) := by
      unfold angle
      rw [div_mul_add i hj', mod_mul_add i hj']
      push_cast; ring
    rw [e]
  rw [e]
  exact h2

theorem f2d_mapM {A B : Type} {f : A → Option B} {l : List A} {g : A → B} (h : ∀ a ∈ l, f a = some (g a)) :
    l.mapM f = some (l.map g) := by
  induction l with
  | nil => rfl
  | cons a l ih =>
    rw [List.mapM_cons, h a (by simp), ih (fun b hb => h b (by simp [hb]))]
    rfl

/-- C90: `fourier2d` in double precision, for a library whose cosine and sine are within `2^-53`
of the exact values.  There is one function of the pair of times and of the coefficients, the
same whatever the memory held before and whatever the other times and coefficients of the call
are, whose values are the items of the result.  Their error is at most the effect of
`n1 + n2 + size1 size2 + 4` roundings on four times the sum of the absolute values of the
coefficients, where `n1`, `n2` are the largest wave numbers times (10 + the absolute value of the
phase).  Missing: as in C29, the second minimal degree must not be the largest one. -/
theorem C90_fourier2d_partial {rnd cos sin : ℝ → ℝ} (R : Nearest rnd)
    (hcos : ∀ x, |cos x - Real.cos x| ≤ 2 ^ (-53 : ℤ)) (hsin : ∀ x, |sin x - Real.sin x| ≤ 2 ^ (-53 : ℤ))
    (size1 size2 : Nat) (min1 min2 : Int) (scale1 scale2 : ℝ) (hok : BufferOk size1 size2 min1 min2)
    (hd1 : waveNumber size1 min1 < 2 ^ 31) (hd2 : waveNumber size2 min2 < 2 ^ 31) :
    ∃ F : ℝ × ℝ → List (ℝ × ℝ) → ℝ,
      (∀ (junk : Nat → ℝ × ℝ) (times : List (ℝ × ℝ)) (abs : List (List (ℝ × ℝ))),
        (∀ ab ∈ abs, ab.length = size1 * size2) →
        fourier2dF rnd cos sin junk times abs size1 size2 min1 min2 scale1 scale2 =
          some (times.map (fun t => abs.map (F t)))) ∧
      ∀ (t : ℝ × ℝ) (ab : List (ℝ × ℝ)) (n1 n2 : Nat), ab.length = size1 * size2 →
        waveNumber size1 min1 * (10 + |t.1 * scale1|) ≤ n1 →
        waveNumber size2 min2 * (10 + |t.2 * scale2|) ≤ n2 →
        n1 + n2 + size1 * size2 + 4 ≤ 2 ^ 40 →
        |F t ab - fourierOf ab size1 size2 min1 min2 (t.1 * scale1) (t.2 * scale2)| ≤
          (n1 + n2 + size1 * size2 + 4) * 2 ^ (-52 : ℤ) * (4 * fourierSize ab size1 size2) := by
  have h : (min2.natAbs : Int) ≤ maxAbsDegree min1 (min1 + size1 - 1) min2 (min2 + size2 - 1) := by
    simp only [BufferOk] at hok
    simp only [maxAbsDegree]
    omega
  have hex : ∀ x : ℝ, ∃ n : Nat, x ≤ n := fun x => exists_nat_ge x
  set T : ℝ × ℝ → Nat → ℝ × ℝ := fun t => tableW rnd cos sin min1 min2 size2 scale1 scale2 t.1 t.2 with hT
  have hval : ∀ (t : ℝ × ℝ) (ab : List (ℝ × ℝ)), ab.length = size1 * size2 →
      ∃ v, fsEval2dF rnd ab ((List.range (size1 * size2)).map (T t)) size1 size2 = some v ∧
        ∀ n1 n2 : Nat, waveNumber size1 min1 * (10 + |t.1 * scale1|) ≤ n1 →
          waveNumber size2 min2 * (10 + |t.2 * scale2|) ≤ n2 →
          Rounded (n1 + n2 + 2 + 2 + size1 * size2) (4 * fourierSize ab size1 size2)
            (fourierOf ab size1 size2 min1 min2 (t.1 * scale1) (t.2 * scale2)) v := by
    intro t ab hab
    have key : ∀ n1 n2 : Nat, waveNumber size1 min1 * (10 + |t.1 * scale1|) ≤ n1 →
        waveNumber size2 min2 * (10 + |t.2 * scale2|) ≤ n2 →
        ∃ v, fsEval2dF rnd ab ((List.range (size1 * size2)).map (T t)) size1 size2 = some v ∧
          Rounded (n1 + n2 + 2 + 2 + size1 * size2) (4 * fourierSize ab size1 size2)
            (fourierOf ab size1 size2 min1 min2 (t.1 * scale1) (t.2 * scale2)) v := by
      intro n1 n2 hn1 hn2
      obtain ⟨f', -, -, -, hnear⟩ := f2dCosSinF_ok R hcos hsin _ min1 min2 size1 size2 scale1 scale2 t.1 t.2
        (f2dInit_ok (fun _ => (0, 0)) min1 min2 size1 size2 scale1 scale2) h hd1 hd2 hn1 hn2
      exact f2d_eval_near R ab size1 size2 _ min1 min2 scale1 scale2 t.1 t.2 _ hab hnear
    obtain ⟨m1, hm1⟩ := hex (waveNumber size1 min1 * (10 + |t.1 * scale1|))
    obtain ⟨m2, hm2⟩ := hex (waveNumber size2 min2 * (10 + |t.2 * scale2|))
    obtain ⟨v, hv, -⟩ := key m1 m2 hm1 hm2
    refine ⟨v, hv, fun n1 n2 hn1 hn2 => ?_⟩
    obtain ⟨v', hv', hr⟩ := key n1 n2 hn1 hn2
    rw [hv] at hv'
    rwa [Option.some.inj hv']
  set F : ℝ × ℝ → List (ℝ × ℝ) → ℝ := fun t ab =>
    (fsEval2dF rnd ab ((List.range (size1 * size2)).map (T t)) size1 size2).getD 0 with hF
  refine ⟨F, ?_, ?_⟩
  · intro junk times abs habs
    unfold fourier2dF
    have hf0 := f2dInit_ok junk min1 min2 size1 size2 scale1 scale2
    generalize f2dInit junk min1 size1 min2 size2 scale1 scale2 = f at hf0
    induction times generalizing f with
    | nil => rfl
    | cons t l ih =>
      obtain ⟨m1, hm1⟩ := hex (waveNumber size1 min1 * (10 + |t.1 * scale1|))
      obtain ⟨m2, hm2⟩ := hex (waveNumber size2 min2 * (10 + |t.2 * scale2|))
      obtain ⟨f1, h1, hf1, hcs, -⟩ := f2dCosSinF_ok R hcos hsin f min1 min2 size1 size2 scale1 scale2 t.1 t.2
        hf0 h hd1 hd2 hm1 hm2
      have hev : abs.mapM (f2dEvalF rnd f1) = some (abs.map (F t)) := by
        refine f2d_mapM (fun ab hab => ?_)
        have e1 : (f1.max1 - f1.min1 + 1).toNat = size1 := by rw [hf1.max1, hf1.min1]; omega
        have e2 : (f1.max2 - f1.min2 + 1).toNat = size2 := by rw [hf1.max2, hf1.min2]; omega
        unfold f2dEvalF
        rw [e1, e2, hcs]
        obtain ⟨v, hv, -⟩ := hval t ab (habs ab hab)
        simp only [hF, hT] at hv ⊢
        rw [hv]
        rfl
      obtain ⟨t1, t2⟩ := t
      simp only [f2dLoopF, Option.bind_eq_bind, h1, hev, ih f1 hf1, Option.bind_some]
      rfl
  · intro t ab n1 n2 hab hn1 hn2 hle
    obtain ⟨v, hv, hr⟩ := hval t ab hab
    have := (hr n1 n2 hn1 hn2).le (by omega)
    have e : F t ab = v := by simp only [hF]; rw [hv]; rfl
    rw [e]
    refine this.trans (le_of_eq ?_)
    push_cast
    ring

/-- A write outside of the buffer. -/
theorem fsCosSinF_oob (rnd cos sin : ℝ → ℝ) (b : List (ℝ × ℝ)) (n : Nat) (x : ℝ) (hb : b.length ≤ n) :
    fsCosSinF rnd cos sin b n x = none := by
  unfold fsCosSinF
  by_cases hz : b.length = 0
  · rw [wr_none _ (by omega)]; rfl
  rw [wr_eq _ (by omega)]
  simp only [Option.bind_eq_bind, Option.bind_some]
  rw [if_pos (by omega)]
  by_cases h1 : b.length = 1
  · rw [wr_none _ (by simp; omega)]; rfl
  rw [wr_eq _ (by simp; omega)]
  simp only [Option.bind_some]
  have key : ∀ (k i : Nat) (s : List (ℝ × ℝ) × ℝ × ℝ), s.1.length = b.length → i + k = n + 1 →
      1 ≤ k →
      forUp k i (fun i s => (wr s.1 i (rnd (rnd (s.2.1 * cos x) - rnd (s.2.2 * sin x)),
        rnd (rnd (s.2.1 * sin x) + rnd (s.2.2 * cos x)))).bind (fun b =>
          pure (b, rnd (rnd (s.2.1 * cos x) - rnd (s.2.2 * sin x)),
            rnd (rnd (s.2.1 * sin x) + rnd (s.2.2 * cos x))))) s = none := by
    intro k
    induction k with
    | zero => intro i s _ _ h; omega
    | succ k ih =>
      intro i s hl hk _
      simp only [forUp]
      by_cases hi : i < b.length
      · rw [wr_eq _ (by omega)]
        simp only [Option.bind_some, pure]
        exact ih (i + 1) _ (by simpa using hl) (by omega) (by omega)
      · rw [wr_none _ (by omega)]; rfl
  unfold forTo
  rw [key _ _ _ (by simp) (by omega) (by omega)]
  rfl

/-- C90 fails otherwise, with any rounding: the temporary buffer is written outside. -/
theorem C90_overflow (rnd cos sin : ℝ → ℝ) (junk : Nat → ℝ × ℝ) (t : ℝ × ℝ) (times : List (ℝ × ℝ))
    (abs : List (List (ℝ × ℝ))) (size1 size2 : Nat) (min1 min2 : Int) (scale1 scale2 : ℝ)
    (hok : ¬ BufferOk size1 size2 min1 min2) :
    fourier2dF rnd cos sin junk (t :: times) abs size1 size2 min1 min2 scale1 scale2 = none := by
  simp only [BufferOk, not_or] at hok
  obtain ⟨t1, t2⟩ := t
  unfold fourier2dF
  have hf := f2dInit_ok junk min1 min2 size1 size2 scale1 scale2
  set f := f2dInit junk min1 size1 min2 size2 scale1 scale2
  have hlen := hf.tmp
  simp only [maxAbsDegree] at hlen
  have hc : f2dCosSinF rnd cos sin f t1 t2 = none := by
    unfold f2dCosSinF
    obtain ⟨tmp1, ht1, hl1, -⟩ := fsCosSinF_spec rnd cos sin f.tmp (max f.min1.natAbs f.max1.natAbs)
      (rnd (t1 * f.scale1)) (by rw [hf.min1, hf.max1]; omega)
    rw [ht1]
    simp only [Option.bind_eq_bind, Option.bind_some]
    rw [fsCosSinF_oob _ _ _ tmp1 _ _ (by rw [hf.min2, hf.max2]; omega)]
    simp
  simp [f2dLoopF, hc]

/-- C90: a series of the single term of the wave numbers zero gives the coefficient of the cosine
as it is stored, at any times: nothing is rounded. -/
theorem C90_constant {rnd : ℝ → ℝ} (R : Nearest rnd) (cos sin : ℝ → ℝ) (junk : Nat → ℝ × ℝ) (times : List (ℝ × ℝ))
    (ab : List (ℝ × ℝ)) (scale1 scale2 : ℝ) (hab : ∀ p ∈ ab, p.1 ∈ F64) :
    fourier2dF rnd cos sin junk times (ab.map (fun p => [p])) 1 1 0 0 scale1 scale2 =
      some (times.map (fun _ => ab.map Prod.fst)) := by
  unfold fourier2dF
  have hf0 := f2dInit_ok junk 0 0 1 1 scale1 scale2
  simp only [Nat.cast_one] at hf0 ⊢
  generalize f2dInit junk 0 1 0 1 scale1 scale2 = f at hf0
  induction times generalizing f with
  | nil => rfl
  | cons t l ih =>
    obtain ⟨t1, t2⟩ := t
    have hl : f.tmp.length = 2 := by rw [hf0.tmp]; rfl
    have m1 : f.max1 = 0 := by rw [hf0.max1]; rfl
    have m2 : f.max2 = 0 := by rw [hf0.max2]; rfl
    obtain ⟨x, y, hxy⟩ : ∃ x y, f.tmp = [x, y] := List.length_eq_two.mp hl
    obtain ⟨c1, hc1⟩ := List.length_eq_one_iff.mp hf0.cs1
    obtain ⟨c2, hc2⟩ := List.length_eq_one_iff.mp hf0.cs2
    obtain ⟨c3, hc3⟩ := List.length_eq_one_iff.mp (hf0.cs12.trans (by norm_num))
    have h1 : f2dCosSinF rnd cos sin f t1 t2 =
        some { f with tmp := [(1, 0), y], cs1 := [(1, 0)], cs2 := [(1, 0)], cs12 := [(1, 0)] } := by
      unfold f2dCosSinF
      rw [hf0.min1, hf0.min2, m1, m2, hxy, hc1, hc2, hc3]
      simp [fsCosSinF, wr, fsCosSinNeg, forUp, rd, wrI, fsCosSin2dF, forBelow, R.zero, R.one]
    have h2 : (ab.map (fun p => [p])).mapM (f2dEvalF rnd
        { f with tmp := [(1, 0), y], cs1 := [(1, 0)], cs2 := [(1, 0)], cs12 := [(1, 0)] }) =
        some (ab.map Prod.fst) := by
      rw [f2d_mapM (g := fun q => (q.headD (0, 0)).1)]
      · simp [Function.comp_def]
      · intro q hq
        obtain ⟨p, hp, rfl⟩ := List.mem_map.mp hq
        unfold f2dEvalF
        simp only [hf0.min1, hf0.min2, m1, m2]
        simp [fsEval2dF, forBelow, forUp, rd, R.zero, R.fixed (hab p hp)]
    have hf1 : F2DOk { f with tmp := [(1, 0), y], cs1 := [(1, 0)], cs2 := [(1, 0)], cs12 := [(1, 0)] }
        0 0 1 1 scale1 scale2 :=
      ⟨hf0.min1, hf0.max1, hf0.min2, hf0.max2, hf0.scale1, hf0.scale2, rfl, rfl, rfl, rfl⟩
    simp only [f2dLoopF, Option.bind_eq_bind, h1, h2, ih _ hf1, Option.bind_some]
    rfl

-- the sizes of the MIO series (3 seasonal and 9 diurnal wave numbers), phases of 3.1 and 1.6: the
-- effect of 148 roundings on the sum of the coefficients
example : ∃ rnd cos sin, Nearest rnd ∧ ∃ v : ℝ,
    fourier2dF rnd cos sin (fun _ => (7, 7)) [(0.5, 0.25)] [List.replicate 27 (1, 0)] 3 9 0 (-4) 6.25 6.25 =
      some [[v]] ∧
    |v - fourierOf (List.replicate 27 (1, 0)) 3 9 0 (-4) (0.5 * 6.25) (0.25 * 6.25)| ≤
      148 * 2 ^ (-52 : ℤ) * (4 * fourierSize (List.replicate 27 (1, 0)) 3 9) := by
  obtain ⟨rnd, R⟩ := Nearest.exists
  have hone : ∀ y : ℝ, |y| ≤ 1 → |rnd y - y| ≤ 2 ^ (-53 : ℤ) := by
    intro y hy
    refine (R.err (k := 0) (by norm_num) (by simpa using hy)).trans ?_
    exact zpow_le_zpow_right₀ (by norm_num) (by norm_num)
  obtain ⟨F, h1, h2⟩ := C90_fourier2d_partial (cos := fun x => rnd (Real.cos x)) (sin := fun x => rnd (Real.sin x)) R
    (fun x => hone _ (Real.abs_cos_le_one x)) (fun x => hone _ (Real.abs_sin_le_one x)) 3 9 0 (-4) 6.25 6.25
    (by right; right; right; decide) (by decide) (by decide)
  refine ⟨rnd, fun x => rnd (Real.cos x), fun x => rnd (Real.sin x), R, F (0.5, 0.25) (List.replicate 27 (1, 0)), ?_, ?_⟩
  · exact h1 _ [(0.5, 0.25)] [List.replicate 27 (1, 0)] (by simp)
  · refine (h2 (0.5, 0.25) (List.replicate 27 (1, 0)) 60 57 (by simp) ?_ ?_ (by norm_num)).trans ?_
    · have : waveNumber 3 0 = 2 := by decide
      rw [this, abs_of_pos (by norm_num)]
      norm_num
    · have : waveNumber 9 (-4) = 4 := by decide
      rw [this, abs_of_pos (by norm_num)]
      norm_num
    · refine mul_le_mul_of_nonneg_right (mul_le_mul_of_nonneg_right ?_ (by positivity)) ?_
      · norm_num
      · unfold fourierSize
        positivity

end Verif.Props
