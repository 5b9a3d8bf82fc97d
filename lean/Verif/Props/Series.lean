/-
C21: cosine and sine series of the longitude.
C22: powers of the relative radius.
C29: 2D Fourier series.
-/
import Verif.Lemmas.Fourier
import Verif.Lemmas.RadPow
import Mathlib.Data.Real.Basic
import Mathlib.Tactic.NormNum

set_option linter.unusedSectionVars false

namespace Verif.Props

open Verif.Buf Verif.Fourier

/-- C21: `loncossin` gives the cosines and sines of all the multiples of the longitude up
to the degree, with both algorithms, whatever the output array held before; all accesses
are inside of the array of `degree + 1` rows. -/
theorem C21_loncossin (b : List (ℝ × ℝ)) (lon : ℝ) (degree : Nat) (fast : Bool)
    (hb : b.length = degree + 1) :
    loncossin Real.cos Real.sin (Real.pi / 180) b lon degree fast =
      some (some ((List.range (degree + 1)).map (fun (k : Nat) =>
        (Real.cos (k * (lon * (Real.pi / 180))), Real.sin (k * (lon * (Real.pi / 180))))))) := by
  unfold loncossin
  rw [if_neg (by omega)]
  congr 1
  rw [Int.toNat_natCast]
  cases fast
  · obtain ⟨b', h1, h2, h3⟩ := fsCosSinRef_spec b degree (lon * (Real.pi / 180)) (by omega)
    simp only [Bool.false_eq_true, if_false, h1]
    congr 1
    exact Holds.eq (by omega) (h3.mono (fun j hj => by omega))
  · obtain ⟨b', h1, h2, h3⟩ := fsCosSin_spec b degree (lon * (Real.pi / 180)) (by omega)
    simp only [if_true, h1]
    congr 1
    exact Holds.eq (by omega) (h3.mono (fun j hj => by omega))

/-- C21: a negative degree is rejected. -/
theorem C21_negative (b : List (ℝ × ℝ)) (lon : ℝ) (degree : Int) (fast : Bool) (h : degree < 0) :
    loncossin Real.cos Real.sin (Real.pi / 180) b lon degree fast = none := by
  unfold loncossin; rw [if_pos h]

/-- C21: the values for a range of multiples with negative ones are taken correctly from
those for the non-negative ones. -/
theorem C21_neg (b pos : List (ℝ × ℝ)) (nmin nmax : Int) (x : ℝ) (n : Nat)
    (hn : n = max nmin.natAbs nmax.natAbs)
    (hpos : pos = (List.range (n + 1)).map (fun (k : Nat) => (Real.cos (k * x), Real.sin (k * x))))
    (hb : b.length = (nmax - nmin + 1).toNat) :
    fsCosSinNeg b pos nmin nmax = some ((List.range (nmax - nmin + 1).toNat).map
      (fun (k : Nat) => (Real.cos ((nmin + k : Int) * x), Real.sin ((nmin + k : Int) * x)))) := by
  refine fsCosSinNeg_spec b pos nmin nmax x n ?_ (by omega) (by omega) hb
  subst hpos
  exact (holds_range _ _).mono (fun j hj => by omega)

-- degree 2 at 90 degrees: the recurrence overwrites the garbage
example : (fsCosSin (fun _ => 0) (fun _ => 1) [(7, 7), (7, 7), (7, 7)] 2 5 : Option (List (ℚ × ℚ))) =
    some [(1, 0), (0, 1), (-1, 0)] := by decide +kernel

-- the range -2..1 from the values for 0..2
example : fsCosSinNeg [(9, 9), (9, 9), (9, 9), (9, 9)] [(1, 0), (0, 1), (-1, 3)] (-2) 1 =
    some [((-1 : ℚ), -3), (0, -1), (1, 0), (0, 1)] := by decide +kernel

/-- C22: `relradpow` gives `(a/r)^(k+2)` resp. `(r/a)^(k-1)` for all `k` up to the degree;
all accesses are inside of the array of `degree + 1` items. -/
theorem C22_relradpow (b : List ℝ) (r a : ℝ) (degree : Nat) (isInternal : Bool)
    (hb : b.length = degree + 1) (ha : 0 < a) :
    RadPow.relradpow b r degree a isInternal = some (some ((List.range (degree + 1)).map
      (fun (k : Nat) => if isInternal then (a / r) ^ ((k : Int) + 2) else (r / a) ^ ((k : Int) - 1)))) := by
  unfold RadPow.relradpow
  rw [if_neg (by omega), if_neg (not_le.mpr ha)]
  congr 1
  rw [Int.toNat_natCast]
  cases isInternal
  · obtain ⟨b', h1, h2, h3⟩ := RadPow.external_spec b degree (r / a) (by omega)
    simp only [Bool.false_eq_true, if_false, h1]
    congr 1
    refine Holds.eq (by omega) ((h3.mono (fun j hj => by omega)).congr ?_)
    intro j _
    rcases j with _ | j
    · simp
    · rw [if_neg (by omega)]
      rw [show ((j + 1 : Nat) : Int) - 1 = (j : Int) by push_cast; ring, zpow_natCast]
      rfl
  · obtain ⟨b', h1, h2, h3⟩ := RadPow.internal_spec b degree (r / a) (by omega)
    simp only [if_true, h1]
    congr 1
    refine Holds.eq (by omega) ((h3.mono (fun j hj => by omega)).congr ?_)
    intro j _
    rw [one_div_div, show (j : Int) + 2 = ((j + 2 : Nat) : Int) by push_cast; ring, zpow_natCast]

/-- C22: a negative degree or a reference radius which is not positive is rejected. -/
theorem C22_rejected (b : List ℝ) (r a : ℝ) (degree : Int) (isInternal : Bool)
    (h : degree < 0 ∨ a ≤ 0) : RadPow.relradpow b r degree a isInternal = none := by
  unfold RadPow.relradpow
  by_cases hd : degree < 0
  · rw [if_pos hd]
  · rw [if_neg hd, if_pos (h.resolve_left hd)]

/-- The documentation string of `relradpow` (pymm_relradpow.h lines 63-66) promises the
exponent `i + 1` for the external field; this is not what is returned. -/
theorem C22_documentation_wrong : ∃ (b : List ℝ) (r a : ℝ) (degree : Nat), b.length = degree + 1 ∧
    0 < a ∧ 0 < r ∧ RadPow.relradpow b r degree a false ≠ some (some ((List.range (degree + 1)).map
      (fun (k : Nat) => (r / a) ^ ((k : Int) + 1)))) := by
  refine ⟨[0], 2, 1, 0, rfl, by norm_num, by norm_num, ?_⟩
  rw [C22_relradpow [0] 2 1 0 false rfl (by norm_num)]
  norm_num [List.range_succ]

example : (RadPow.relradpow [9, 9, 9] 6 2 2 true : Option (Option (List ℚ))) =
    some (some [1 / 9, 1 / 27, 1 / 81]) := by decide +kernel

example : (RadPow.relradpow [9, 9, 9, 9] 6 3 2 false : Option (Option (List ℚ))) =
    some (some [1 / 3, 1, 3, 9]) := by decide +kernel

/-- The 2D Fourier series with the coefficients `A i j` of the cosines and `B i j` of the
sines, where `i`, `j` count from the minimal degrees. -/
noncomputable def fourierSum (A B : Nat → Nat → ℝ) (size1 size2 : Nat) (min1 min2 : Int)
    (x y : ℝ) : ℝ :=
  ∑ i ∈ Finset.range size1, ∑ j ∈ Finset.range size2,
    (A i j * Real.cos ((min1 + i) * x + (min2 + j) * y) +
      B i j * Real.sin ((min1 + i) * x + (min2 + j) * y))

/-- C29: `fourier2d` evaluates the 2D Fourier series for every pair of times and every
matrix of coefficients, with any minimal degrees, provided the absolute value of the
second minimal degree is not the largest one.  What is missing: otherwise the temporary
buffer is too small, see `C29_overflow`. -/
theorem C29_fourier2d_partial (junk : Nat → ℝ × ℝ) (times : List (ℝ × ℝ))
    (abs : List (List (ℝ × ℝ))) (size1 size2 : Nat) (min1 min2 : Int) (scale1 scale2 : ℝ)
    (habs : ∀ ab ∈ abs, ab.length = size1 * size2)
    (h : min2.natAbs ≤ 1 ∨ min2.natAbs ≤ min1.natAbs ∨ min2.natAbs ≤ (min1 + size1 - 1).natAbs ∨ min2.natAbs ≤ (min2 + size2 - 1).natAbs) :
    fourier2d Real.cos Real.sin junk times abs size1 size2 min1 min2 scale1 scale2 =
      some (times.map (fun t => abs.map (fun ab =>
        fourierSum (fun i j => (ab.getD (i * size2 + j) (0, 0)).1)
          (fun i j => (ab.getD (i * size2 + j) (0, 0)).2) size1 size2 min1 min2
          (scale1 * t.1) (scale2 * t.2)))) := by
  unfold fourier2d
  rw [f2dLoop_ok abs min1 min2 size1 size2 scale1 scale2 ?_ habs times _
    (f2dInit_ok junk min1 min2 size1 size2 scale1 scale2)]
  · congr 1
    refine List.map_congr_left (fun t _ => List.map_congr_left (fun ab _ => ?_))
    rw [sum_range_mul]
    unfold fourierSum
    refine Finset.sum_congr rfl (fun i _ => Finset.sum_congr rfl (fun j hj => ?_))
    have hj' := Finset.mem_range.mp hj
    have e : angle min1 min2 size2 scale1 scale2 t.1 t.2 (i * size2 + j) =
        (min1 + i) * (scale1 * t.1) + (min2 + j) * (scale2 * t.2) := by
      unfold angle
      rw [div_mul_add i hj', mod_mul_add i hj']
      push_cast; ring
    rw [e]
  · simp only [maxAbsDegree]
    omega

/-- The usual ranges are covered: non-negative ones and those symmetric about 0. -/
theorem C29_usual_partial (junk : Nat → ℝ × ℝ) (times : List (ℝ × ℝ))
    (abs : List (List (ℝ × ℝ))) (size1 size2 : Nat) (min1 min2 : Int) (scale1 scale2 : ℝ)
    (habs : ∀ ab ∈ abs, ab.length = size1 * size2)
    (h : (0 ≤ min2 ∧ 1 ≤ size2) ∨ min2 + size2 - 1 = -min2) :
    ∃ r, fourier2d Real.cos Real.sin junk times abs size1 size2 min1 min2 scale1 scale2 = some r :=
  ⟨_, C29_fourier2d_partial junk times abs size1 size2 min1 min2 scale1 scale2 habs (by omega)⟩

/-- C29 fails otherwise: `_fourier2d_init` uses `min_degree1` twice and `min_degree2`
never (pymm_fourier2d.h line 351), so that the temporary buffer is written outside. -/
theorem C29_overflow (junk : Nat → ℝ × ℝ) (times : List (ℝ × ℝ)) (abs : List (List (ℝ × ℝ)))
    (size1 size2 : Nat) (min1 min2 : Int) (scale1 scale2 : ℝ) (ht : times ≠ [])
    (h : 1 < min2.natAbs ∧ min1.natAbs < min2.natAbs ∧ (min1 + size1 - 1).natAbs < min2.natAbs ∧ (min2 + size2 - 1).natAbs < min2.natAbs) :
    fourier2d Real.cos Real.sin junk times abs size1 size2 min1 min2 scale1 scale2 = none := by
  obtain ⟨t, l, rfl⟩ : ∃ t l, times = t :: l := by
    cases times with
    | nil => exact absurd rfl ht
    | cons t l => exact ⟨t, l, rfl⟩
  obtain ⟨t1, t2⟩ := t
  unfold fourier2d
  have hf := f2dInit_ok junk min1 min2 size1 size2 scale1 scale2
  set f := f2dInit junk min1 size1 min2 size2 scale1 scale2
  have hlen := hf.tmp
  simp only [maxAbsDegree] at hlen
  have hc : f2dCosSin Real.cos Real.sin f t1 t2 = none := by
    unfold f2dCosSin
    obtain ⟨tmp1, ht1, hl1, -⟩ := fsCosSin_spec f.tmp (max f.min1.natAbs f.max1.natAbs)
      (t1 * f.scale1) (by rw [hf.min1, hf.max1]; omega)
    rw [ht1]
    simp only [Option.bind_eq_bind, Option.bind_some]
    rw [fsCosSin_oob tmp1 _ _ (by rw [hf.min2, hf.max2]; omega)]
    simp
  simp [f2dLoop, hc]

-- the condition of the overflow can be met: degrees -5..-3 in the second dimension
example : ∃ (size1 size2 : Nat) (min1 min2 : Int),
    1 < min2.natAbs ∧ min1.natAbs < min2.natAbs ∧ (min1 + size1 - 1).natAbs < min2.natAbs ∧ (min2 + size2 - 1).natAbs < min2.natAbs :=
  ⟨1, 3, 0, -5, by decide⟩

-- a case with two times, two matrices and a negative minimal degree
example : (fourier2d (fun x => x + 1) (fun x => x) (fun _ => (5, 5)) [(1, 2), (0, 1)]
    [[(1, 0), (0, 0)], [(0, 2), (1, 1)]] 1 2 (-1) 0 1 1 : Option (List (List ℚ))) =
    some [[2, 7], [1, 3]] := by decide +kernel

end Verif.Props
