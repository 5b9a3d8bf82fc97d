import Verif.Lemmas.Alf
import Verif.Spec.Libm
import Verif.Lemmas.Geo
import Mathlib.Algebra.BigOperators.Intervals
import Mathlib.Analysis.Calculus.Deriv.Add
import Mathlib.Analysis.SpecialFunctions.Complex.LogDeriv
import Mathlib.Analysis.SpecialFunctions.Sqrt

set_option linter.unusedSectionVars false

namespace Verif.Apex

open Verif.Spec Verif.Buf Verif.Geo

/-! ### Position of the harmonics in the arrays -/

/-- Position of the first harmonic of the order. -/
def off (nmax : ℕ) : ℕ → ℕ
  | 0 => 0
  | 1 => nmax + 1
  | m + 2 => off nmax (m + 1) + 2 * (nmax + 1 - (m + 1))

theorem off_succ (nmax m : ℕ) (hm : 1 ≤ m) : off nmax (m + 1) = off nmax m + 2 * (nmax + 1 - m) := by
  obtain ⟨k, rfl⟩ : ∃ k, m = k + 1 := ⟨m - 1, by omega⟩
  rfl

theorem off_mono (nmax m k : ℕ) (hm : 1 ≤ m) : off nmax m ≤ off nmax (m + k) := by
  induction k with
  | zero => exact le_refl _
  | succ k ih =>
    rw [show m + (k + 1) = (m + k) + 1 by ring, off_succ _ _ (by omega)]
    omega

theorem off_ntermsh (nmax mmax : ℕ) (h1 : 1 ≤ mmax) (h : mmax ≤ nmax) : off nmax (mmax + 1) = ntermsh nmax mmax := by
  have key : ∀ m, 1 ≤ m → m ≤ nmax → (off nmax (m + 1) : ℤ) = (m : ℤ) * (2 * nmax - m + 1) + nmax + 1 := by
    intro m hm
    induction m, hm using Nat.le_induction with
    | base => intro h; rw [off_succ _ _ (le_refl _)]; simp only [off]; push_cast; omega
    | succ m hm ih =>
      intro h
      rw [off_succ _ _ (by omega)]
      have := ih (by omega)
      push_cast
      rw [this]
      have e : ((nmax - m : ℕ) : ℤ) = nmax - m := by omega
      rw [e]
      ring
  unfold ntermsh
  rw [← key mmax h1 h]
  simp

theorem off_lt (nmax mmax m n : ℕ) (hm : 1 ≤ m) (hmm : m ≤ mmax) (hn : m ≤ n) (hnn : n ≤ nmax) :
    off nmax m + 2 * (n - m) + 1 < off nmax (mmax + 1) := by
  have h1 := off_mono nmax (m + 1) (mmax - m) (by omega)
  rw [show m + 1 + (mmax - m) = mmax + 1 by omega, off_succ _ _ hm] at h1
  omega

/-! ### Partial scalar products -/

/-- Scalar product of the first `i` items. -/
noncomputable def psum (a : Vec ℝ) (c : ℕ → ℝ) (i : ℕ) : ℝ := ∑ k ∈ Finset.range i, a.at' k * c k

theorem wr_psum (a : Vec ℝ) (i : ℕ) (v : ℝ) (h : i < a.len) :
    ∃ a', a.wr i v = some a' ∧ a'.len = a.len ∧ ∀ c, psum a' c (i + 1) = psum a c i + v * c i := by
  refine ⟨{ a with at' := fun k => if k = i then v else a.at' k }, by unfold Vec.wr; rw [if_pos h], rfl, ?_⟩
  intro c
  unfold psum
  rw [Finset.sum_range_succ]
  congr 1
  · apply Finset.sum_congr rfl
    intro k hk
    rw [Finset.mem_range] at hk
    simp only []
    rw [if_neg (by omega)]
  · simp

section
variable {nmax mmax : ℕ} {x y : ℝ} {a : Alf ℝ}

/-- Coefficients of the cosine and sine terms in the array. -/
def ca (nmax : ℕ) (c : ℕ → ℝ) (n m : ℕ) : ℝ := if m = 0 then c n else c (off nmax m + 2 * (n - m))
def cb (nmax : ℕ) (c : ℕ → ℝ) (n m : ℕ) : ℝ := c (off nmax m + 2 * (n - m) + 1)

/-- Sum of the terms of the degrees below `n` of the order `m`. -/
noncomputable def ordSum (nmax : ℕ) (f : ℕ → ℕ → ℝ) (u v : ℝ) (c : ℕ → ℝ) (m n : ℕ) : ℝ :=
  ∑ k ∈ Finset.Ico m n, (ca nmax c k m * u + cb nmax c k m * v) * f k m

/-- Sum of the terms of the order 0 and of the orders below `m`. -/
noncomputable def allSum (nmax : ℕ) (f : ℕ → ℕ → ℝ) (u v : ℕ → ℝ) (z : ℝ) (c : ℕ → ℝ) (m : ℕ) : ℝ :=
  z + ∑ j ∈ Finset.Ico 1 m, ordSum nmax f (u j) (v j) c j (nmax + 1)

theorem shZero_spec (hd : Dims nmax mmax a) (hc : Complete nmax mmax x y a) (s : Sh ℝ)
    (h1 : s.sh.len = off nmax (mmax + 1)) (h2 : s.gt.len = off nmax (mmax + 1)) (h3 : s.gp.len = off nmax (mmax + 1)) :
    ∃ s' : Sh ℝ, forTo 0 nmax (shZero a) (s, 0) = some (s', nmax + 1) ∧
      (s'.sh.len = off nmax (mmax + 1) ∧ s'.gt.len = off nmax (mmax + 1) ∧ s'.gp.len = off nmax (mmax + 1)) ∧
      ∀ c, psum s'.sh c (nmax + 1) = ∑ n ∈ Finset.range (nmax + 1), c n * pf n 0 x y ∧
        psum s'.gt c (nmax + 1) = ∑ n ∈ Finset.range (nmax + 1), c n * vf n 0 x y ∧ psum s'.gp c (nmax + 1) = 0 := by
  have hle : nmax + 1 ≤ off nmax (mmax + 1) := by
    have := off_mono nmax 1 mmax (le_refl _)
    rw [show 1 + mmax = mmax + 1 by ring] at this
    exact this
  obtain ⟨⟨s', i⟩, e, hi, hl, hs⟩ := forTo_inv (fun n (t : Sh ℝ × ℕ) => t.2 = n ∧
      (t.1.sh.len = off nmax (mmax + 1) ∧ t.1.gt.len = off nmax (mmax + 1) ∧ t.1.gp.len = off nmax (mmax + 1)) ∧
      ∀ c, psum t.1.sh c n = ∑ k ∈ Finset.range n, c k * pf k 0 x y ∧
        psum t.1.gt c n = ∑ k ∈ Finset.range n, c k * vf k 0 x y ∧ psum t.1.gp c n = 0)
    (shZero a) 0 nmax (s, 0) (by omega) ⟨rfl, ⟨h1, h2, h3⟩, fun c => by simp [psum]⟩ (by
      rintro n ⟨t, i⟩ - hn ⟨hi, ⟨l1, l2, l3⟩, hs⟩
      simp only at hi
      subst hi
      simp only at l1 l2 l3 hs
      have hp := hc 0 i (Nat.zero_le _) (Nat.zero_le _) hn
      obtain ⟨sh, e1, m1, p1⟩ := wr_psum t.sh i (pf i 0 x y) (by omega)
      obtain ⟨gt, e2, m2, p2⟩ := wr_psum t.gt i (vf i 0 x y) (by omega)
      obtain ⟨gp, e3, m3, p3⟩ := wr_psum t.gp i 0 (by omega)
      refine ⟨(⟨sh, gt, gp⟩, i + 1), ?_, rfl, ⟨by simp only; omega, by simp only; omega, by simp only; omega⟩, ?_⟩
      · unfold shZero Mat.rd
        rw [if_pos ⟨by rw [hd.1.1]; exact hn, Nat.zero_le _⟩, if_pos ⟨by rw [hd.2.1.1]; exact hn, Nat.zero_le _⟩]
        simp only [bind, Option.bind, hp.1, hp.2.1, e1, e2, e3]
      · intro c
        obtain ⟨q1, q2, q3⟩ := hs c
        simp only
        rw [p1, p2, p3, q1, q2, q3, Finset.sum_range_succ, Finset.sum_range_succ]
        refine ⟨by ring, by ring, by ring⟩)
  simp only at hi
  subst hi
  exact ⟨s', e, hl, hs⟩

theorem shVal_spec (hd : Dims nmax mmax a) (hc : Complete nmax mmax x y a) (u v : ℝ) (m : ℕ) (hm : 1 ≤ m) (hmm : m ≤ mmax)
    (hnn : m ≤ nmax) (s : Sh ℝ) (h1 : s.sh.len = off nmax (mmax + 1)) :
    ∃ s' : Sh ℝ, forTo m nmax (shVal a u v m) (s, off nmax m) = some (s', off nmax (m + 1)) ∧
      s'.sh.len = off nmax (mmax + 1) ∧ s'.gt = s.gt ∧ s'.gp = s.gp ∧
      ∀ c, psum s'.sh c (off nmax (m + 1)) = psum s.sh c (off nmax m) +
        ordSum nmax (fun n m => pf n m x y) u v c m (nmax + 1) := by
  obtain ⟨⟨s', i⟩, e, hi, hl, hgt, hgp, hs⟩ := forTo_inv (fun n (t : Sh ℝ × ℕ) => t.2 = off nmax m + 2 * (n - m) ∧
      t.1.sh.len = off nmax (mmax + 1) ∧ t.1.gt = s.gt ∧ t.1.gp = s.gp ∧
      ∀ c, psum t.1.sh c (off nmax m + 2 * (n - m)) = psum s.sh c (off nmax m) +
        ordSum nmax (fun n m => pf n m x y) u v c m n)
    (shVal a u v m) m nmax (s, off nmax m) (by omega) ⟨by simp, h1, rfl, rfl, fun c => by simp [ordSum]⟩ (by
      rintro n ⟨t, i⟩ hmn hn ⟨hi, l1, g1, g2, hs⟩
      simp only at hi l1 g1 g2 hs
      have hp := hc m n hmm hmn hn
      have hb := off_lt nmax mmax m n hm hmm hmn hn
      obtain ⟨sh, e1, m1, p1⟩ := wr_psum t.sh i (pf n m x y * u) (by omega)
      obtain ⟨sh2, e2, m2, p2⟩ := wr_psum sh (i + 1) (pf n m x y * v) (by omega)
      have hi' : off nmax m + 2 * (n + 1 - m) = i + 1 + 1 := by omega
      refine ⟨(⟨sh2, t.gt, t.gp⟩, i + 2), ?_, by simp only; omega, by simp only; omega, g1, g2, ?_⟩
      · unfold shVal Mat.rd
        rw [if_pos ⟨by rw [hd.1.1]; exact hn, by rw [hd.1.2]; exact hmm⟩]
        simp only [bind, Option.bind, hp.1, e1, e2]
      · intro c
        simp only
        rw [hi', p2, p1, hi, hs c]
        unfold ordSum
        rw [Finset.sum_Ico_succ_top hmn]
        unfold ca cb
        rw [if_neg (by omega)]
        ring)
  simp only at hi hl hgt hgp hs
  have ho : off nmax m + 2 * (nmax + 1 - m) = off nmax (m + 1) := (off_succ _ _ hm).symm
  rw [ho] at hi
  subst hi
  refine ⟨s', e, hl, hgt, hgp, ?_⟩
  intro c
  rw [← ho]
  exact hs c

theorem shGrad_spec (hd : Dims nmax mmax a) (hc : Complete nmax mmax x y a) (u v : ℝ) (m : ℕ) (hm : 1 ≤ m) (hmm : m ≤ mmax)
    (hnn : m ≤ nmax) (s : Sh ℝ) (h2 : s.gt.len = off nmax (mmax + 1)) (h3 : s.gp.len = off nmax (mmax + 1)) :
    ∃ s' : Sh ℝ, forTo m nmax (shGrad a u v m) (s, off nmax m) = some (s', off nmax (m + 1)) ∧
      s'.sh = s.sh ∧ s'.gt.len = off nmax (mmax + 1) ∧ s'.gp.len = off nmax (mmax + 1) ∧
      ∀ c, psum s'.gt c (off nmax (m + 1)) = psum s.gt c (off nmax m) +
          ordSum nmax (fun n m => vf n m x y) u v c m (nmax + 1) ∧
        psum s'.gp c (off nmax (m + 1)) = psum s.gp c (off nmax m) +
          ordSum nmax (fun n m => m * wf n m x y) (-v) u c m (nmax + 1) := by
  obtain ⟨⟨s', i⟩, e, hi, hl, hgt, hgp, hs⟩ := forTo_inv (fun n (t : Sh ℝ × ℕ) => t.2 = off nmax m + 2 * (n - m) ∧
      t.1.sh = s.sh ∧ t.1.gt.len = off nmax (mmax + 1) ∧ t.1.gp.len = off nmax (mmax + 1) ∧
      ∀ c, psum t.1.gt c (off nmax m + 2 * (n - m)) = psum s.gt c (off nmax m) +
          ordSum nmax (fun n m => vf n m x y) u v c m n ∧
        psum t.1.gp c (off nmax m + 2 * (n - m)) = psum s.gp c (off nmax m) +
          ordSum nmax (fun n m => m * wf n m x y) (-v) u c m n)
    (shGrad a u v m) m nmax (s, off nmax m) (by omega) ⟨by simp, rfl, h2, h3, fun c => by simp [ordSum]⟩ (by
      rintro n ⟨t, i⟩ hmn hn ⟨hi, g1, l2, l3, hs⟩
      simp only at hi g1 l2 l3 hs
      have hp := hc m n hmm hmn hn
      have hw := hp.2.2 hm
      have hb := off_lt nmax mmax m n hm hmm hmn hn
      obtain ⟨gt, e1, m1, p1⟩ := wr_psum t.gt i (vf n m x y * u) (by omega)
      obtain ⟨gt2, e2, m2, p2⟩ := wr_psum gt (i + 1) (vf n m x y * v) (by omega)
      obtain ⟨gp, e3, m3, p3⟩ := wr_psum t.gp i (-(m * wf n m x y) * v) (by omega)
      obtain ⟨gp2, e4, m4, p4⟩ := wr_psum gp (i + 1) (m * wf n m x y * u) (by omega)
      have hi' : off nmax m + 2 * (n + 1 - m) = i + 1 + 1 := by omega
      refine ⟨(⟨t.sh, gt2, gp2⟩, i + 2), ?_, by simp only; omega, g1, by simp only; omega, by simp only; omega, ?_⟩
      · unfold shGrad Mat.rd
        rw [if_pos ⟨by rw [hd.2.1.1]; exact hn, by rw [hd.2.1.2]; exact hmm⟩,
          if_pos ⟨by rw [hd.2.2.1]; exact hn, by rw [hd.2.2.2]; exact hmm⟩]
        simp only [bind, Option.bind, hp.2.1, hw, e1, e2, e3, e4]
      · intro c
        simp only
        obtain ⟨q1, q2⟩ := hs c
        rw [hi', p2, p1, p4, p3, hi, q1, q2]
        unfold ordSum
        rw [Finset.sum_Ico_succ_top hmn, Finset.sum_Ico_succ_top hmn]
        unfold ca cb
        rw [if_neg (by omega)]
        constructor <;> ring)
  simp only at hi hl hgt hgp hs
  have ho : off nmax m + 2 * (nmax + 1 - m) = off nmax (m + 1) := (off_succ _ _ hm).symm
  rw [ho] at hi
  subst hi
  refine ⟨s', e, hl, hgt, hgp, ?_⟩
  intro c
  rw [← ho]
  exact hs c

/-- Lengths of the three arrays. -/
def Lens (nmax mmax : ℕ) (s : Sh ℝ) : Prop :=
  s.sh.len = off nmax (mmax + 1) ∧ s.gt.len = off nmax (mmax + 1) ∧ s.gp.len = off nmax (mmax + 1)

/-- Scalar products of the arrays left by `shcalc` with any coefficients. -/
theorem shcalc_spec (h1 : 1 ≤ mmax) (hnn : mmax ≤ nmax) (hd : Dims nmax mmax a) (hc : Complete nmax mmax x y a)
    (vec : Bool) (φ : ℝ) (s : Sh ℝ) (hl : Lens nmax mmax s) :
    ∃ s', shcalc libm nmax mmax a vec φ s = some s' ∧ Lens nmax mmax s' ∧ ∀ c : ℕ → ℝ,
      psum s'.sh c (off nmax (mmax + 1)) = allSum nmax (fun n m => pf n m x y) (fun m => Real.cos (m * φ)) (fun m => Real.sin (m * φ))
        (∑ n ∈ Finset.range (nmax + 1), c n * pf n 0 x y) c (mmax + 1) ∧
      (vec = true →
        psum s'.gt c (off nmax (mmax + 1)) = allSum nmax (fun n m => vf n m x y) (fun m => Real.cos (m * φ)) (fun m => Real.sin (m * φ))
          (∑ n ∈ Finset.range (nmax + 1), c n * vf n 0 x y) c (mmax + 1) ∧
        psum s'.gp c (off nmax (mmax + 1)) = allSum nmax (fun n m => m * wf n m x y) (fun m => -Real.sin (m * φ)) (fun m => Real.cos (m * φ))
          0 c (mmax + 1)) := by
  obtain ⟨s1, e1, l1, p1⟩ := shZero_spec hd hc s hl.1 hl.2.1 hl.2.2
  obtain ⟨⟨s2, i, i1⟩, e2, -, -, l2, p2⟩ := forTo_inv (fun m (t : ShSt ℝ) => t.i = off nmax m ∧ (vec = true → t.i1 = off nmax m) ∧
      Lens nmax mmax t.sh ∧ ∀ c : ℕ → ℝ,
      psum t.sh.sh c (off nmax m) = allSum nmax (fun n m => pf n m x y) (fun m => Real.cos (m * φ)) (fun m => Real.sin (m * φ))
        (∑ n ∈ Finset.range (nmax + 1), c n * pf n 0 x y) c m ∧
      (vec = true →
        psum t.sh.gt c (off nmax m) = allSum nmax (fun n m => vf n m x y) (fun m => Real.cos (m * φ)) (fun m => Real.sin (m * φ))
          (∑ n ∈ Finset.range (nmax + 1), c n * vf n 0 x y) c m ∧
        psum t.sh.gp c (off nmax m) = allSum nmax (fun n m => m * wf n m x y) (fun m => -Real.sin (m * φ)) (fun m => Real.cos (m * φ))
          0 c m))
    (shOrder libm nmax a vec φ) 1 mmax ⟨s1, nmax + 1, nmax + 1⟩ (by omega) ⟨rfl, fun _ => rfl, l1, fun c => by
      obtain ⟨q1, q2, q3⟩ := p1 c
      refine ⟨?_, fun _ => ⟨?_, ?_⟩⟩
      · simp only [allSum, Finset.Ico_self, Finset.sum_empty, add_zero]; exact q1
      · simp only [allSum, Finset.Ico_self, Finset.sum_empty, add_zero]; exact q2
      · simp only [allSum, Finset.Ico_self, Finset.sum_empty, add_zero]; exact q3⟩ (by
      rintro m ⟨t, i, i1⟩ hm hmm ⟨hi, hi1, hl, hs⟩
      simp only at hi hi1 hl hs
      subst hi
      obtain ⟨r, f1, r1, r2, r3, r4⟩ := shVal_spec hd hc (Real.cos (m * φ)) (Real.sin (m * φ)) m hm hmm (by omega) t hl.1
      have key : shOrder libm nmax a vec φ m ⟨t, off nmax m, i1⟩ =
          (if vec then forTo m nmax (shGrad a (Real.cos (m * φ)) (Real.sin (m * φ)) m) (r, i1) else some (r, i1)).bind
            (fun q => some ⟨q.1, off nmax (m + 1), q.2⟩) := by
        unfold shOrder
        simp only [bind]
        rw [show libm.cos ((m : ℝ) * φ) = Real.cos (m * φ) from rfl, show libm.sin ((m : ℝ) * φ) = Real.sin (m * φ) from rfl, f1]
        cases vec <;> rfl
      rw [key]
      cases vec with
      | false =>
        refine ⟨⟨r, off nmax (m + 1), i1⟩, rfl, rfl, by simp, ⟨r1, by rw [r2]; exact hl.2.1, by rw [r3]; exact hl.2.2⟩, ?_⟩
        intro c
        refine ⟨?_, by simp⟩
        simp only
        rw [r4 c, (hs c).1]
        unfold allSum
        rw [Finset.sum_Ico_succ_top hm]
        ring
      | true =>
        have hi1 := hi1 rfl
        subst hi1
        obtain ⟨q, f2, q1, q2, q3, q4⟩ := shGrad_spec hd hc (Real.cos (m * φ)) (Real.sin (m * φ)) m hm hmm (by omega) r
          (by rw [r2]; exact hl.2.1) (by rw [r3]; exact hl.2.2)
        refine ⟨⟨q, off nmax (m + 1), off nmax (m + 1)⟩, ?_, rfl, fun _ => rfl, ⟨by rw [q1]; exact r1, q2, q3⟩, ?_⟩
        · simp only [if_true, f2, Option.bind_some]
        · intro c
          obtain ⟨a1, a2⟩ := hs c
          obtain ⟨a2, a3⟩ := a2 rfl
          simp only
          rw [q1, r4 c, (q4 c).1, (q4 c).2, r2, r3, a1, a2, a3]
          unfold allSum
          rw [Finset.sum_Ico_succ_top hm, Finset.sum_Ico_succ_top hm, Finset.sum_Ico_succ_top hm]
          refine ⟨by ring, fun _ => ⟨by ring, by ring⟩⟩)
  refine ⟨s2, ?_, l2, p2⟩
  unfold shcalc
  simp only [bind, e1, Option.bind_some, e2, Option.map_some]

end

/-! ### The series and its derivatives -/

theorem Icc_Ico (m n : ℕ) : Finset.Icc m n = Finset.Ico m (n + 1) := by
  ext k; simp [Finset.mem_Icc, Finset.mem_Ico, Nat.lt_succ_iff]

theorem allSum_series (nmax mmax : ℕ) (c : ℕ → ℝ) (θ φ : ℝ) :
    allSum nmax (fun n m => pf n m (Real.cos θ) (Real.sin θ)) (fun m => Real.cos (m * φ)) (fun m => Real.sin (m * φ))
        (∑ n ∈ Finset.range (nmax + 1), c n * pf n 0 (Real.cos θ) (Real.sin θ)) c (mmax + 1) =
      shSeries nmax mmax (ca nmax c) (cb nmax c) θ φ := by
  unfold allSum shSeries ordSum
  congr 1
  · apply Finset.sum_congr rfl
    intro n _
    rw [fullP_eq]; rfl
  · rw [Icc_Ico]
    apply Finset.sum_congr rfl
    intro m _
    rw [Icc_Ico]
    apply Finset.sum_congr rfl
    intro n _
    rw [fullP_eq]; rfl

theorem hasDerivAt_series_theta (nmax mmax : ℕ) (c : ℕ → ℝ) (θ φ : ℝ) :
    HasDerivAt (fun t => shSeries nmax mmax (ca nmax c) (cb nmax c) t φ)
      (allSum nmax (fun n m => vf n m (Real.cos θ) (Real.sin θ)) (fun m => Real.cos (m * φ)) (fun m => Real.sin (m * φ))
        (∑ n ∈ Finset.range (nmax + 1), c n * vf n 0 (Real.cos θ) (Real.sin θ)) c (mmax + 1)) θ := by
  unfold shSeries allSum ordSum
  refine HasDerivAt.add ?_ ?_
  · refine HasDerivAt.fun_sum (fun n _ => ?_)
    exact (hasDerivAt_fullP n 0 θ).const_mul (c n)
  · rw [Icc_Ico]
    refine HasDerivAt.fun_sum (fun m _ => ?_)
    rw [Icc_Ico]
    refine HasDerivAt.fun_sum (fun n _ => ?_)
    exact (hasDerivAt_fullP n m θ).const_mul _

theorem hasDerivAt_series_phi (nmax mmax : ℕ) (c : ℕ → ℝ) (θ φ : ℝ) :
    HasDerivAt (fun t => shSeries nmax mmax (ca nmax c) (cb nmax c) θ t)
      (Real.sin θ * allSum nmax (fun n m => m * wf n m (Real.cos θ) (Real.sin θ)) (fun m => -Real.sin (m * φ)) (fun m => Real.cos (m * φ))
          0 c (mmax + 1)) φ := by
  have h0 : HasDerivAt (fun _ : ℝ => ∑ n ∈ Finset.range (nmax + 1), ca nmax c n 0 * fullP n 0 θ) 0 φ := hasDerivAt_const _ _
  have h1 : HasDerivAt (fun t : ℝ => ∑ m ∈ Finset.Icc 1 mmax, ∑ n ∈ Finset.Icc m nmax,
      (ca nmax c n m * Real.cos (m * t) + cb nmax c n m * Real.sin (m * t)) * fullP n m θ)
      (∑ m ∈ Finset.Icc 1 mmax, ∑ n ∈ Finset.Icc m nmax,
      Real.sin θ * ((ca nmax c n m * -Real.sin (m * φ) + cb nmax c n m * Real.cos (m * φ)) * (m * wf n m (Real.cos θ) (Real.sin θ)))) φ := by
    refine HasDerivAt.fun_sum (fun m hm => ?_)
    refine HasDerivAt.fun_sum (fun n _ => ?_)
    have hl : HasDerivAt (fun t : ℝ => (m : ℝ) * t) (m : ℝ) φ := by
      simpa using (hasDerivAt_id φ).const_mul (m : ℝ)
    have hcos := (Real.hasDerivAt_cos ((m : ℝ) * φ)).comp φ hl
    have hsin := (Real.hasDerivAt_sin ((m : ℝ) * φ)).comp φ hl
    refine (((hcos.const_mul (ca nmax c n m)).add (hsin.const_mul (cb nmax c n m))).mul_const (fullP n m θ)).congr_deriv ?_
    rw [fullP_eq]
    have := pf_wf n m (Finset.mem_Icc.mp hm).1 (Real.cos θ) (Real.sin θ)
    unfold pf at this
    rw [this]
    ring
  refine (h0.add h1).congr_deriv ?_
  unfold allSum ordSum
  rw [zero_add, zero_add, Finset.mul_sum, Icc_Ico]
  apply Finset.sum_congr rfl
  intro m _
  rw [Finset.mul_sum, Icc_Ico]

/-! ### Derivative of the angles -/

theorem hasDerivAt_atan2 {f g : ℝ → ℝ} {f' g' t : ℝ} (hf : HasDerivAt f f' t) (hg : HasDerivAt g g' t)
    (h : 0 < f t ∨ g t ≠ 0) :
    HasDerivAt (fun s => atan2 (g s) (f s)) ((g' * f t - f' * g t) / (f t * f t + g t * g t)) t := by
  have hF : HasDerivAt (fun s => (⟨f s, g s⟩ : ℂ)) ⟨f', g'⟩ t := by
    have h1 : HasDerivAt (fun s => ((f s : ℂ))) (f' : ℂ) t := hf.ofReal_comp
    have h2 : HasDerivAt (fun s => ((g s : ℂ))) (g' : ℂ) t := hg.ofReal_comp
    have h3 := h1.add (h2.mul_const Complex.I)
    have e : (fun s => (⟨f s, g s⟩ : ℂ)) = (fun s => (f s : ℂ)) + (fun s => (g s : ℂ) * Complex.I) := by
      funext s
      apply Complex.ext <;> simp
    rw [e]
    refine h3.congr_deriv ?_
    apply Complex.ext <;> simp
  have hs : (⟨f t, g t⟩ : ℂ) ∈ Complex.slitPlane := h
  have hl := hF.clog_real hs
  have hi := Complex.imCLM.hasFDerivAt.comp_hasDerivAt t hl
  have e : (fun s => atan2 (g s) (f s)) = (Complex.imCLM ∘ fun s => Complex.log ⟨f s, g s⟩) := by
    funext s
    simp [atan2, Complex.log_im]
  rw [e]
  refine hi.congr_deriv ?_
  simp only [Complex.imCLM_apply, Complex.div_im, Complex.normSq_mk]
  ring

theorem hasDerivAt_sqrt2 {f g : ℝ → ℝ} {f' g' t : ℝ} (hf : HasDerivAt f f' t) (hg : HasDerivAt g g' t)
    (h : 0 < f t * f t + g t * g t) :
    HasDerivAt (fun s => Real.sqrt (f s * f s + g s * g s))
      ((f t * f' + g t * g') / Real.sqrt (f t * f t + g t * g t)) t := by
  have := ((hf.mul hf).add (hg.mul hg)).sqrt h.ne'
  refine this.congr_deriv ?_
  simp only [Pi.add_apply, Pi.mul_apply]
  field_simp
  ring

/-- Derivatives of the latitude and longitude of a moving vector. -/
theorem hasDerivAt_latlon {X Y Z : ℝ → ℝ} {X' Y' Z' t : ℝ} (hX : HasDerivAt X X' t) (hY : HasDerivAt Y Y' t)
    (hZ : HasDerivAt Z Z' t) (h : 0 < X t ∨ Y t ≠ 0) :
    HasDerivAt (fun s => atan2 (Y s) (X s))
      ((-Real.sin (atan2 (Y t) (X t)) * X' + Real.cos (atan2 (Y t) (X t)) * Y') / Real.sqrt (X t * X t + Y t * Y t)) t ∧
    HasDerivAt (fun s => atan2 (Z s) (Real.sqrt (X s * X s + Y s * Y s)))
      ((-(Real.cos (atan2 (Y t) (X t)) * X' + Real.sin (atan2 (Y t) (X t)) * Y') *
          Real.sin (atan2 (Z t) (Real.sqrt (X t * X t + Y t * Y t))) +
        Real.cos (atan2 (Z t) (Real.sqrt (X t * X t + Y t * Y t))) * Z') /
          Real.sqrt (X t * X t + Y t * Y t + Z t * Z t)) t := by
  have hp : 0 < X t * X t + Y t * Y t := by
    rcases h with h | h
    · have := mul_self_nonneg (Y t); nlinarith
    · have := mul_self_nonneg (X t); have := mul_self_pos.mpr h; linarith
  set r := Real.sqrt (X t * X t + Y t * Y t) with hr
  have hr0 : 0 < r := Real.sqrt_pos.mpr hp
  have hrr : r * r = X t * X t + Y t * Y t := Real.mul_self_sqrt hp.le
  have c1 := cos_atan2 (Y t) (X t)
  have s1 := sin_atan2 (Y t) (X t)
  rw [← hr] at c1 s1
  set lon := atan2 (Y t) (X t) with hlon
  set R := Real.sqrt (X t * X t + Y t * Y t + Z t * Z t) with hR
  have hR2 : R * R = r * r + Z t * Z t := by
    rw [hrr]; exact Real.mul_self_sqrt (by have := mul_self_nonneg (Z t); linarith)
  have hR0 : 0 < R := Real.sqrt_pos.mpr (by have := mul_self_nonneg (Z t); linarith)
  have c2 := cos_atan2 (Z t) r
  have s2 := sin_atan2 (Z t) r
  have hRr : Real.sqrt (r * r + Z t * Z t) = R := by rw [← hR2]; exact Real.sqrt_mul_self hR0.le
  rw [hRr] at c2 s2
  set lat := atan2 (Z t) r with hlat
  constructor
  · refine (hasDerivAt_atan2 hX hY h).congr_deriv ?_
    rw [← hrr, ← c1, ← s1]
    field_simp
    ring
  · have hd := hasDerivAt_sqrt2 hX hY hp
    rw [← hr] at hd
    refine (hasDerivAt_atan2 hd hZ (Or.inl hr0)).congr_deriv ?_
    rw [← hr, ← hR2]
    have e : (X t * X' + Y t * Y') / r = Real.cos lon * X' + Real.sin lon * Y' := by
      rw [div_eq_iff hr0.ne', ← c1, ← s1]; ring
    rw [e]
    have e2 : Z' * r - (Real.cos lon * X' + Real.sin lon * Y') * Z t =
        R * (-(Real.cos lon * X' + Real.sin lon * Y') * Real.sin lat + Real.cos lat * Z') := by
      linear_combination (Real.cos lon * X' + Real.sin lon * Y') * s2 - Z' * c2
    rw [e2]
    field_simp

end Verif.Apex
