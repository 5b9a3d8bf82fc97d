/-
Helper lemmas: the stateless evaluation of a point as series of spherical harmonics.
-/
import Verif.Lemmas.Qd
import Verif.Spec.Qd

set_option linter.unusedSectionVars false

namespace Verif.Qd

open Verif.Apex Verif.Geo Verif.Buf Verif Verif.Spec Verif.Spec.Qd

theorem termCount_eq (nmax mmax : ℕ) (h1 : 1 ≤ mmax) (h : mmax ≤ nmax) : ntermsh nmax mmax = termCount nmax mmax := by
  unfold ntermsh termCount
  obtain ⟨d, rfl⟩ : ∃ d, nmax = mmax + d := ⟨nmax - mmax, by omega⟩
  rw [show 2 * (mmax + d) - mmax + 1 = mmax + 2 * d + 1 by omega]
  have : ((mmax : ℤ) * (2 * ((mmax + d : ℕ) : ℤ) - mmax + 1) + ((mmax + d : ℕ) : ℤ) + 1) =
      ((mmax + d + 1 + mmax * (mmax + 2 * d + 1) : ℕ) : ℤ) := by push_cast; ring
  rw [this, Int.toNat_natCast]

theorem off_eq (nmax m : ℕ) (h1 : 1 ≤ m) (h : m ≤ nmax) : off nmax m = nmax + 1 + (m - 1) * (2 * nmax - m + 2) := by
  obtain ⟨k, rfl⟩ : ∃ k, m = k + 1 := ⟨m - 1, by omega⟩
  rcases Nat.eq_zero_or_pos k with rfl | hk
  · simp [off]
  · rw [off_ntermsh nmax k hk (by omega), termCount_eq nmax k hk (by omega)]
    unfold termCount
    rw [show k + 1 - 1 = k by omega, show 2 * nmax - (k + 1) + 2 = 2 * nmax - k + 1 by omega]

/-- The terms of the series are inside of the arrays. -/
theorem termIndex_lt {nmax mmax n m : ℕ} (h1 : 1 ≤ mmax) (hnn : mmax ≤ nmax) (hm : m ≤ mmax) (hn : m ≤ n) (hN : n ≤ nmax) :
    termIndex nmax n m < ntermsh nmax mmax ∧ (1 ≤ m → termIndex nmax n m + 1 < ntermsh nmax mmax) := by
  unfold termIndex
  rw [← off_ntermsh nmax mmax h1 hnn]
  rcases Nat.eq_zero_or_pos m with rfl | hm0
  · refine ⟨?_, by intro h; omega⟩
    have := off_mono nmax 1 mmax (le_refl _)
    rw [show off nmax 1 = nmax + 1 from rfl, show 1 + mmax = mmax + 1 by ring] at this
    simp only [if_true]; omega
  · have := off_lt nmax mmax m n hm0 hm hn hN
    rw [off_eq nmax m hm0 (by omega)] at this
    rw [if_neg (by omega)]
    exact ⟨by omega, fun _ => this⟩

theorem ca_eq {nmax : ℕ} (c : ℕ → ℝ) {n m : ℕ} (h : m ≤ nmax) : ca nmax c n m = c (termIndex nmax n m) := by
  unfold ca termIndex
  by_cases hm : m = 0
  · rw [if_pos hm, if_pos hm]
  · rw [if_neg hm, if_neg hm, off_eq nmax m (by omega) h]

theorem cb_eq {nmax : ℕ} (c : ℕ → ℝ) {n m : ℕ} (h1 : 1 ≤ m) (h : m ≤ nmax) : cb nmax c n m = c (termIndex nmax n m + 1) := by
  unfold cb termIndex
  rw [if_neg (by omega), off_eq nmax m h1 h]

theorem shSeries_congr {nmax mmax : ℕ} {a b a' b' : ℕ → ℕ → ℝ} (ha : ∀ n m, m ≤ mmax → m ≤ n → n ≤ nmax → a n m = a' n m)
    (hb : ∀ n m, 1 ≤ m → m ≤ mmax → m ≤ n → n ≤ nmax → b n m = b' n m) (θ φ : ℝ) :
    shSeries nmax mmax a b θ φ = shSeries nmax mmax a' b' θ φ := by
  unfold shSeries
  congr 1
  · refine Finset.sum_congr rfl fun n hn => ?_
    rw [Finset.mem_range] at hn
    rw [ha n 0 (by omega) (by omega) (by omega)]
  · refine Finset.sum_congr rfl fun m hm => Finset.sum_congr rfl fun n hn => ?_
    rw [Finset.mem_Icc] at hm hn
    rw [ha n m hm.2 hn.1 hn.2, hb n m hm.1 hm.2 hn.1 hn.2]

/-- Series with collapsed coefficients. -/
theorem series_component {nmax mmax lmax : ℕ} (h1 : 1 ≤ mmax) (hnn : mmax ≤ nmax) (v : ℕ → ℝ) (C : ℕ → ℝ) (ρ : ℝ)
    (h : ∀ i, i < ntermsh nmax mmax → v i = ∑ l ∈ Finset.range (lmax + 1), C (l * ntermsh nmax mmax + i) * ρ ^ l) (θ φ : ℝ) :
    shSeries nmax mmax (ca nmax v) (cb nmax v) θ φ = component nmax mmax lmax C ρ θ φ := by
  unfold component
  refine shSeries_congr (fun n m hm hn hN => ?_) (fun n m hm1 hm hn hN => ?_) θ φ
  · rw [ca_eq v (by omega), h _ (termIndex_lt h1 hnn hm hn hN).1, termCount_eq nmax mmax h1 hnn]
  · rw [cb_eq v hm1 (by omega), h _ ((termIndex_lt h1 hnn hm hn hN).2 hm1), termCount_eq nmax mmax h1 hnn]
    simp only [add_assoc]

/-- Interpolated coefficients of a coordinate. -/
def coefs (t : Table ℝ) (w : ℕ × ℕ × ℝ) (k : ℕ) (i : ℕ) : ℝ := mix w (fun e => t.coef i e k)

theorem blend_at (t : Table ℝ) (w : ℕ × ℕ × ℝ) (k i : ℕ) : (blend t w k).at' i = coefs t w k i := rfl

theorem req_eq : (req : ℝ) = radiusEq := by unfold req radiusEq; norm_num
theorem eps_eq : (eps : ℝ) = flattening := by unfold eps flattening; norm_num
theorem re_eq : (re : ℝ) = radiusMean := by unfold re radiusMean; rw [req_eq, eps_eq]
theorem ecc2_eq : (Apex.ecc2 : ℝ) = Spec.Qd.ecc2 := by unfold Apex.ecc2 Spec.Qd.ecc2; rw [eps_eq]

theorem colAt_spec {t : Table ℝ} (ht : TableOk t) {w} {e : X ℝ} (hw : weights t.grid e = some w) (alt : ℝ) :
    ∃ c, colAt t e alt = some c ∧ c.h = alt ∧ ∀ θ φ,
      shSeries t.nmax t.mmax (ca t.nmax c.x.at') (cb t.nmax c.x.at') θ φ =
        component t.nmax t.mmax t.lmax (coefs t w 0) (radiusMean / (radiusMean + alt)) θ φ ∧
      shSeries t.nmax t.mmax (ca t.nmax c.y.at') (cb t.nmax c.y.at') θ φ =
        component t.nmax t.mmax t.lmax (coefs t w 1) (radiusMean / (radiusMean + alt)) θ φ ∧
      shSeries t.nmax t.mmax (ca t.nmax c.z.at') (cb t.nmax c.z.at') θ φ =
        component t.nmax t.mmax t.lmax (coefs t w 2) (radiusMean / (radiusMean + alt)) θ φ := by
  obtain ⟨c, hc, h1, h2, h3, h4, h5⟩ := collapsed_spec (blend t w 0) (blend t w 1) (blend t w 2) (ntermsh t.nmax t.mmax) t.lmax alt
    ht.terms.ge ht.terms.ge ht.terms.ge
  refine ⟨c, by unfold colAt; rw [hw]; exact hc, h1, fun θ φ => ?_⟩
  rw [← re_eq]
  exact ⟨series_component ht.pos ht.le _ _ _ (fun i hi => (h5 i hi).1) θ φ,
    series_component ht.pos ht.le _ _ _ (fun i hi => (h5 i hi).2.1) θ φ,
    series_component ht.pos ht.le _ _ _ (fun i hi => (h5 i hi).2.2) θ φ⟩


/-! ### Epochs -/

/-- The weights of a finite epoch: the clamped epoch is between two nodes. -/
theorem weights_clamp {grid : List ℝ} (hs : grid.Pairwise (· < ·)) (h : 0 < grid.length) (e : ℝ) :
    ∃ w, weights grid (.fin e) = some w ∧ w.1 < grid.length ∧ w.2.1 < grid.length ∧ 0 ≤ w.2.2 ∧ w.2.2 ≤ 1 ∧
      ∀ v : ℕ → ℝ, (e ≤ grid[0] → mix w v = v 0) ∧ (grid[grid.length - 1] ≤ e → mix w v = v (grid.length - 1)) ∧
        ∀ k (hk : k + 1 < grid.length), grid[k] ≤ e → e ≤ grid[k + 1] →
          mix w v = v k + (e - grid[k]) / (grid[k + 1] - grid[k]) * (v (k + 1) - v k) := by
  have hl := head_le_last hs h
  have h1 : grid.headD 0 = grid[0] := by rw [List.headD_eq_head?_getD, List.head?_eq_getElem?, grid_get h]; rfl
  have h2 : grid.getLastD 0 = grid[grid.length - 1] := by
    rw [List.getLastD_eq_getLast?, List.getLast?_eq_getElem?, grid_get (by omega)]; rfl
  have hc : clampR grid e = min (max e grid[0]) grid[grid.length - 1] := by unfold clampR; rw [h1, h2]
  have hlt := List.pairwise_iff_getElem.mp hs
  have hle : ∀ a b (ha : a < grid.length) (hb : b < grid.length), a ≤ b → grid[a] ≤ grid[b] := by
    intro a b ha hb hab
    rcases Nat.eq_or_lt_of_le hab with h | h
    · subst h; exact le_refl _
    · exact (hlt a b ha hb h).le
  obtain ⟨w, e1, b1, b2, b3, b4, b5, b6⟩ := weights_fin hs h (.fin e) _ (clampEpoch_fin hs h e)
    (by rw [hc]; exact le_min (le_max_right _ _) hl) (by rw [hc]; exact min_le_right _ _)
  refine ⟨w, e1, b1, b2, b3, b4, fun v => ⟨fun he => ?_, fun he => ?_, fun k hk hk1 hk2 => ?_⟩⟩
  · exact b6 v 0 h (by rw [hc, max_eq_right he, min_eq_left hl])
  · exact b6 v (grid.length - 1) (by omega) (by rw [hc, max_eq_left (hl.trans he), min_eq_right he])
  · have : clampR grid e = e := by
      rw [hc, max_eq_left ((hle 0 k h (by omega) (by omega)).trans hk1),
        min_eq_left (hk2.trans (hle (k + 1) (grid.length - 1) hk (by omega) (by omega)))]
    have := b5 v k hk (by rw [this]; exact hk1) (by rw [this]; exact hk2)
    rw [this, ‹clampR grid e = e›]

/-- Any point of the range is between two neighbours. -/
theorem exists_cell {grid : List ℝ} (h : 0 < grid.length) (e : ℝ) :
    e ≤ grid[0] ∨ grid[grid.length - 1] ≤ e ∨ ∃ k, ∃ hk : k + 1 < grid.length, grid[k] ≤ e ∧ e ≤ grid[k + 1] := by
  by_contra hc
  push Not at hc
  obtain ⟨c1, c2, c3⟩ := hc
  have key : ∀ k (hk : k < grid.length), grid[k] < e := by
    intro k
    induction k with
    | zero => intro _; exact c1
    | succ k ih => intro hk; exact c3 k hk (ih (by omega)).le
  exact absurd (key (grid.length - 1) (by omega)) (not_lt.mpr c2.le)

theorem polyline_eq {grid : List ℝ} (hs : grid.Pairwise (· < ·)) (h : 0 < grid.length) {v : ℕ → ℝ} {f : ℝ → ℝ}
    (hf : IsPolyline grid v f) {e : ℝ} {w} (hw : weights grid (.fin e) = some w) : f e = mix w v := by
  obtain ⟨w', e1, _, _, _, _, b⟩ := weights_clamp hs h e
  rw [hw] at e1
  cases e1
  obtain ⟨b1, b2, b3⟩ := b v
  rcases exists_cell h e with h1 | h1 | ⟨k, hk, h1, h2⟩
  · rw [b1 h1, hf.below h e h1]
  · rw [b2 h1, hf.above h e h1]
  · rw [b3 k hk h1 h2, hf.between k hk e h1 h2]

/-- The function computed with the weights is a polyline. -/
noncomputable def polyVal (grid : List ℝ) (v : ℕ → ℝ) (e : ℝ) : ℝ :=
  match weights grid (.fin e) with
  | some w => mix w v
  | none => 0

theorem polyVal_spec {grid : List ℝ} (hs : grid.Pairwise (· < ·)) (h : 0 < grid.length) (v : ℕ → ℝ) :
    IsPolyline grid v (polyVal grid v) := by
  refine ⟨fun _ e he => ?_, fun _ e he => ?_, fun k hk e h1 h2 => ?_⟩ <;>
  · obtain ⟨w, e1, _, _, _, _, b⟩ := weights_clamp hs h e
    have : polyVal grid v e = mix w v := by unfold polyVal; rw [e1]
    rw [this]
    first
      | exact (b v).1 he
      | exact (b v).2.1 he
      | exact (b v).2.2 k hk h1 h2

end Verif.Qd
