/-
Properties C49 and C63: the series of arrays of latitudes, longitudes and radii, and the
evaluation of the potential and of the gradient from them.
-/
import Verif.Props.ArrayFunctions
import Verif.Props.Series
import Verif.Lemmas.SeriesApi

set_option linter.unusedSectionVars false

namespace Verif.Props

open Verif.Geo Verif.Spec Verif.ShPoint Verif.FullEval Verif.Arr Verif.Buf Verif.Legendre

/-- Array of rows of `n` numbers next to each other with the leading dimensions `lead`: the
row at `idx` is `R idx`. -/
structure RowsOf (c : NdArray ℝ) (lead : List Nat) (n : Nat) (R : List Nat → List ℝ) : Prop where
  dim : c.arr.dim = lead ++ [n]
  stride : ∃ s, c.arr.stride = s ++ [1] ∧ s.length = lead.length
  len : ∀ idx, Index lead idx → (R idx).length = n
  get : ∀ idx, Index lead idx → ∀ k v, (R idx)[k]? = some v →
    elem c.mem c.arr.data c.arr.stride (idx ++ [k]) = some v

theorem read_row {c : NdArray ℝ} {lc lead : List Nat} {n : Nat} {R : List Nat → List ℝ}
    (hc : RowsOf c lc n R) (hp : lc <+: lead) {idx : List Nat} (h : Index lead idx) :
    readRow c.mem (at' (some 1) c.arr idx) = some (R (idx.take lc.length)) := by
  have hi := index_take hp h
  have hd : c.arr.dim.length - 1 = lc.length := by rw [hc.dim]; simp
  obtain ⟨s, hs, hsl⟩ := hc.stride
  have hl := index_length hi
  have hdata : (at' (some 1) c.arr idx).data = c.arr.data + offset (idx.take lc.length) s := by
    simp only [at', hd, sub]
    rw [hs]
    have := offset_append (idx.take lc.length) s [] [1] (by omega)
    simp only [List.append_nil, offset_nil, add_zero] at this
    rw [this]
  have hdim : (at' (some 1) c.arr idx).dim.head? = some n := by
    simp only [at', hd, sub, hl]
    rw [hc.dim, List.drop_left]
    rfl
  have hlen := hc.len _ hi
  have hrow : ∀ k, k < n → ∃ v, (R (idx.take lc.length))[k]? = some v ∧
      c.mem (c.arr.data + offset (idx.take lc.length) s + k) = some v := by
    intro k hk
    refine ⟨_, List.getElem?_eq_getElem (by omega), ?_⟩
    have g1 := hc.get _ hi k _ (List.getElem?_eq_getElem (by omega))
    unfold elem at g1
    rw [← offset_eq, hs, offset_append _ _ _ _ (by omega)] at g1
    simp only [offset, add_zero, mul_one] at g1
    rw [← g1]
    congr 1
    ring
  unfold readRow
  rw [hdim]
  simp only [Option.bind_eq_bind, Option.bind_some, readN]
  rw [hdata]
  obtain ⟨r, hr⟩ := mapM_isSome (l := List.range n) (f := fun k : Nat =>
    c.mem (c.arr.data + offset (idx.take lc.length) s + k)) (by
    intro k hk
    obtain ⟨v, -, e⟩ := hrow k (by simpa using hk)
    exact ⟨v, e⟩)
  refine hr.trans (congrArg some (List.ext_getElem? fun k => ?_))
  have hg := mapM_get hr k
  by_cases hk : k < n
  · rw [List.getElem?_range hk] at hg
    obtain ⟨v, e0, e1⟩ := hrow k hk
    simp only [Option.bind_some, e1] at hg
    rw [← hg, e0]
  · rw [List.getElem?_eq_none (by rw [mapM_length hr, List.length_range]; omega),
      List.getElem?_eq_none (by omega)]

theorem fits_row {c : NdArray ℝ} {lc lead : List Nat} {n : Nat} {R : List Nat → List ℝ}
    (hc : RowsOf c lc n R) (hp : lc <+: lead) : Fits lead (some 1) c.arr := by
  obtain ⟨s, hs, hsl⟩ := hc.stride
  exact ⟨by rw [hs, hc.dim]; simp [hsl], .inl ⟨lc, [n], hc.dim, rfl, hp⟩⟩

theorem fits_pairs {c : NdArray ℝ} {lc lead : List Nat} {n : Nat} {C : List Nat → List (ℝ × ℝ)}
    (hc : PairsOf c lc n C) (hp : lc <+: lead) : Fits lead (some 2) c.arr := by
  obtain ⟨s, hs, hsl⟩ := hc.stride
  exact ⟨by rw [hs, hc.dim]; simp [hsl], .inl ⟨lc, [n, 2], hc.dim, rfl, hp⟩⟩

/-! ### New arrays -/

theorem elem_new {dims idx : List Nat} (h : Index dims idx) (data : List ℝ) :
    elem (newArray dims data).mem (newArray dims data).arr.data (newArray dims data).arr.stride idx =
      data[rank dims idx]? := by
  unfold elem newArray contiguous
  simp only
  rw [← offset_eq, ← rank_eq h, zero_add]
  unfold rdI rd
  rw [if_pos (by omega), Int.toNat_natCast]

theorem index_snoc {lead idx : List Nat} {n k : Nat} (h : Index lead idx) (hk : k < n) :
    Index (lead ++ [n]) (idx ++ [k]) := List.rel_append h (.cons hk .nil)

theorem cstrides_append (core : List Nat) : ∀ lead : List Nat, ∃ s,
    cstrides (lead ++ core) = s ++ cstrides core ∧ s.length = lead.length
  | [] => ⟨[], rfl, rfl⟩
  | n :: d => by
    obtain ⟨s, h1, h2⟩ := cstrides_append core d
    exact ⟨((d ++ core).prod : Int) :: s, by simp [cstrides, h1], by simp [h2]⟩

theorem block_get {lead idx : List Nat} {w : Nat} {F : List Nat → List ℝ}
    (hF : ∀ i, (F i).length = w) (h : Index lead idx) {k : Nat} (hk : k < w) :
    ((indices lead).map F).flatten[rank lead idx * w + k]? = (F idx)[k]? := by
  rw [flatten_get w _ _ k (by
    intro b hb
    obtain ⟨i, -, rfl⟩ := List.mem_map.mp hb
    exact hF i) hk, List.getElem?_map, indices_rank h]
  rfl

theorem rows_new {lead : List Nat} {n : Nat} {F : List Nat → List ℝ} (hF : ∀ i, (F i).length = n) :
    RowsOf (newArray (lead ++ [n]) ((indices lead).map F).flatten) lead n F := by
  refine ⟨rfl, ?_, fun idx _ => hF idx, ?_⟩
  · obtain ⟨s, h1, h2⟩ := cstrides_append [n] lead
    exact ⟨s, by simpa [newArray, contiguous, cstrides] using h1, h2⟩
  · intro idx hi k v hv
    have hk : k < n := by
      rw [← hF idx]
      exact (List.getElem?_eq_some_iff.mp hv).1
    rw [elem_new (index_snoc hi hk), rank_append n k hi, block_get hF hi hk, hv]

theorem flatPairs_length : ∀ l : List (ℝ × ℝ), (flatPairs l).length = l.length * 2
  | [] => rfl
  | p :: l => by
    have := flatPairs_length l
    simp only [flatPairs, List.flatMap_cons, List.length_append, List.length_cons, List.length_nil] at this ⊢
    omega

theorem flatPairs_get : ∀ (l : List (ℝ × ℝ)) (k : Nat) (p : ℝ × ℝ), l[k]? = some p →
    (flatPairs l)[2 * k]? = some p.1 ∧ (flatPairs l)[2 * k + 1]? = some p.2
  | [], k, p, h => by simp at h
  | q :: l, 0, p, h => by
    simp only [List.getElem?_cons_zero, Option.some.injEq] at h
    subst h
    exact ⟨rfl, rfl⟩
  | q :: l, k + 1, p, h => by
    simp only [List.getElem?_cons_succ] at h
    obtain ⟨h1, h2⟩ := flatPairs_get l k p h
    exact ⟨h1, h2⟩

theorem index_snoc2 {lead idx : List Nat} {n m k j : Nat} (h : Index lead idx) (hk : k < n) (hj : j < m) :
    Index (lead ++ [n, m]) (idx ++ [k, j]) := List.rel_append h (.cons hk (.cons hj .nil))

theorem rank_append2 {lead idx : List Nat} {n m k j : Nat} (h : Index lead idx) (hk : k < n) (hj : j < m) :
    rank (lead ++ [n, m]) (idx ++ [k, j]) = rank lead idx * (n * m) + (m * k + j) := by
  have e1 : lead ++ [n, m] = (lead ++ [n]) ++ [m] := by simp
  have e2 : idx ++ [k, j] = (idx ++ [k]) ++ [j] := by simp
  rw [e1, e2, rank_append m j (index_snoc h hk), rank_append n k h]
  ring

theorem pairs_new {lead : List Nat} {n : Nat} {F : List Nat → List (ℝ × ℝ)} (hF : ∀ i, (F i).length = n) :
    PairsOf (newArray (lead ++ [n, 2]) ((indices lead).map (fun i => flatPairs (F i))).flatten) lead n F := by
  have hF2 : ∀ i, (flatPairs (F i)).length = n * 2 := fun i => by rw [flatPairs_length, hF]
  refine ⟨rfl, ?_, fun idx _ => hF idx, ?_⟩
  · obtain ⟨s, h1, h2⟩ := cstrides_append [n, 2] lead
    exact ⟨s, by simpa [newArray, contiguous, cstrides] using h1, h2⟩
  · intro idx hi k p hp
    have hk : k < n := by
      rw [← hF idx]
      exact (List.getElem?_eq_some_iff.mp hp).1
    obtain ⟨g1, g2⟩ := flatPairs_get _ _ _ hp
    rw [elem_new (index_snoc2 hi hk (by omega)), elem_new (index_snoc2 hi hk (by omega)),
      rank_append2 hi hk (by omega), rank_append2 hi hk (by omega),
      block_get (F := fun i => flatPairs (F i)) hF2 hi (by omega),
      block_get (F := fun i => flatPairs (F i)) hF2 hi (by omega)]
    exact ⟨g1, g2⟩

theorem fits_none {a : NdArray ℝ} {lead : List Nat} {S : List Nat → ℝ} (ha : ScalarsOf a lead S) :
    Fits lead none a.arr := ⟨ha.ndim, by rw [ha.dim]⟩

theorem read_none {a : NdArray ℝ} {lead : List Nat} {S : List Nat → ℝ} (ha : ScalarsOf a lead S)
    {idx : List Nat} (h : idx ∈ indices lead) : a.mem (sub a.arr idx).data = some (S idx) := by
  rw [← ha.get _ (mem_indices.mp h)]
  simp only [sub, elem, ← offset_eq]

/-! ### Powers of the relative radius -/

/-- Row of the powers for one radius. -/
noncomputable def radRow (degree : Nat) (a : ℝ) (int : Bool) (r : ℝ) : List ℝ :=
  (List.range (degree + 1)).map (fun (k : Nat) => if int then (a / r) ^ ((k : Int) + 2) else (r / a) ^ ((k : Int) - 1))

theorem relradpow_rows (junk : Nat → List ℝ) (hj : ∀ n, (junk n).length = n) (rad : NdArray ℝ)
    (lead : List Nat) (S : List Nat → ℝ) (hr : ScalarsOf rad lead S) (degree : Nat) (a : ℝ) (ha : 0 < a)
    (int : Bool) : ∃ out, relradpowArr junk rad degree a int = .ok out ∧
      RowsOf out lead (degree + 1) (fun idx => radRow degree a int (S idx)) := by
  have h := fillRec_eq (fill := fun v b => (if int then RadPow.internal else RadPow.external) b degree (v / a))
    (mem := rad.mem) (core := [degree + 1]) (fits_none hr) S (fun idx hi => read_none hr hi)
    (radRow degree a int) (by
      intro v b hb
      have := C22_relradpow b v a degree int (by simpa using hb) ha
      unfold RadPow.relradpow at this
      rw [if_neg (by omega), if_neg (not_le.mpr ha), Int.toNat_natCast] at this
      exact Option.some.inj this)
    (by intro v; simp [radRow]) (junk (lead ++ [degree + 1]).prod) (hj _)
  refine ⟨_, ?_, rows_new (fun i => by simp [radRow])⟩
  unfold relradpowArr
  rw [if_neg (by omega), if_neg (not_le.mpr ha)]
  simp only [Int.toNat_natCast, hr.dim]
  rw [h]
  rfl

/-- **C63** `relradpow`: the last dimension of the new array has the powers of the radius
at each index. -/
theorem C63_relradpow (junk : Nat → List ℝ) (hj : ∀ n, (junk n).length = n) (rad : NdArray ℝ)
    (lead : List Nat) (S : List Nat → ℝ) (hr : ScalarsOf rad lead S) (degree : Nat) (a : ℝ) (ha : 0 < a)
    (int : Bool) : ∃ out, relradpowArr junk rad degree a int = .ok out ∧ out.arr.dim = lead ++ [degree + 1] ∧
      ∀ idx, Index lead idx → ∀ k ≤ degree,
        elem out.mem out.arr.data out.arr.stride (idx ++ [k]) =
          some (if int then (a / S idx) ^ ((k : Int) + 2) else (S idx / a) ^ ((k : Int) - 1)) := by
  obtain ⟨out, h1, h2⟩ := relradpow_rows junk hj rad lead S hr degree a ha int
  refine ⟨out, h1, h2.dim, fun idx hi k hk => h2.get idx hi k _ ?_⟩
  unfold radRow
  rw [List.getElem?_map, List.getElem?_range (by omega)]
  rfl

/-! ### Cosines and sines of the longitude -/

/-- Row of the cosines and sines for one longitude in degrees. -/
noncomputable def lonRow (degree : Nat) (lon : ℝ) : List (ℝ × ℝ) :=
  (List.range (degree + 1)).map (fun (k : Nat) =>
    (Real.cos (k * (lon * (Real.pi / 180))), Real.sin (k * (lon * (Real.pi / 180)))))

theorem pairUp_some : ∀ (n : Nat) (b : List ℝ), b.length = n * 2 → ∃ ps, pairUp b = some ps ∧ ps.length = n
  | 0, [], _ => ⟨[], rfl, rfl⟩
  | 0, _ :: _, h => by simp at h
  | n + 1, [], h => by simp at h
  | n + 1, [_], h => by simp at h; omega
  | n + 1, x :: y :: l, h => by
    obtain ⟨ps, h1, h2⟩ := pairUp_some n l (by simp at h; omega)
    exact ⟨(x, y) :: ps, by rw [pairUp, h1]; rfl, by simp [h2]⟩

theorem loncossin_rows (junk : Nat → List ℝ) (hj : ∀ n, (junk n).length = n) (lon : NdArray ℝ)
    (lead : List Nat) (S : List Nat → ℝ) (hl : ScalarsOf lon lead S) (degree : Nat) (fast : Bool) :
    ∃ out, loncossinArr libm junk lon degree fast = .ok out ∧
      PairsOf out lead (degree + 1) (fun idx => lonRow degree (S idx)) := by
  have h := fillRec_eq (fill := fun v b => do
        let ps ← pairUp b
        let r ← (if fast then Fourier.fsCosSin libm.cos libm.sin else Fourier.fsCosSinRef libm.cos libm.sin) ps
          degree (v * dg2rad libm)
        return flatPairs r)
    (mem := lon.mem) (core := [degree + 1, 2]) (fits_none hl) S (fun idx hi => read_none hl hi)
    (fun v => flatPairs (lonRow degree v)) (by
      intro v b hb
      obtain ⟨ps, h1, h2⟩ := pairUp_some (degree + 1) b (by simpa using hb)
      have := C21_loncossin ps v degree fast h2
      unfold Fourier.loncossin at this
      rw [if_neg (by omega), Int.toNat_natCast] at this
      have := Option.some.inj this
      simp only [h1, Option.bind_eq_bind, Option.bind_some]
      rw [show (if fast then Fourier.fsCosSin libm.cos libm.sin else Fourier.fsCosSinRef libm.cos libm.sin) ps
        degree (v * dg2rad libm) = _ from this]
      rfl)
    (by intro v; rw [flatPairs_length]; simp [lonRow]) (junk (lead ++ [degree + 1, 2]).prod) (hj _)
  refine ⟨_, ?_, pairs_new (fun i => by simp [lonRow])⟩
  unfold loncossinArr
  rw [if_neg (by omega)]
  simp only [Int.toNat_natCast, hl.dim]
  rw [h]
  rfl

/-- **C63** `loncossin`: the new array has the cosines and sines of the multiples of the
longitude at each index. -/
theorem C63_loncossin (junk : Nat → List ℝ) (hj : ∀ n, (junk n).length = n) (lon : NdArray ℝ)
    (lead : List Nat) (S : List Nat → ℝ) (hl : ScalarsOf lon lead S) (degree : Nat) (fast : Bool) :
    ∃ out, loncossinArr libm junk lon degree fast = .ok out ∧ out.arr.dim = lead ++ [degree + 1, 2] ∧
      ∀ idx, Index lead idx → ∀ k ≤ degree,
        elem out.mem out.arr.data out.arr.stride (idx ++ [k, 0]) =
          some (Real.cos (k * (S idx * (Real.pi / 180)))) ∧
        elem out.mem out.arr.data out.arr.stride (idx ++ [k, 1]) =
          some (Real.sin (k * (S idx * (Real.pi / 180)))) := by
  obtain ⟨out, h1, h2⟩ := loncossin_rows junk hj lon lead S hl degree fast
  refine ⟨out, h1, h2.dim, fun idx hi k hk => h2.get idx hi k
    (Real.cos (k * (S idx * (Real.pi / 180))), Real.sin (k * (S idx * (Real.pi / 180)))) ?_⟩
  unfold lonRow
  rw [List.getElem?_map, List.getElem?_range (by omega)]
  rfl

/-! ### Legendre functions -/

/-- A table is determined by its items. -/
theorem tab_unique {N : Nat} {l l' : List ℝ} (h : l.length = tri (N + 1)) (h' : l'.length = tri (N + 1))
    (e : ∀ n m, m ≤ n → n ≤ N → l[tri n + m]? = l'[tri n + m]?) : l = l' := by
  apply List.ext_getElem?
  intro k
  by_cases hk : k < tri (N + 1)
  · obtain ⟨n, m, h1, h2, rfl⟩ := tri_surj N k hk
    exact e n m h1 h2
  · rw [List.getElem?_eq_none (by omega), List.getElem?_eq_none (by omega)]

/-- Rows of the functions and their derivatives for one latitude. -/
noncomputable def legRow (N : Nat) (lat : ℝ) : Legendre.Out ℝ :=
  (legendre Real.sin Real.sqrt nearPole (10 ^ 280)
    ⟨List.replicate (tri (N + 1)) 0, List.replicate (tri (N + 1)) 0⟩ N (lat * (Real.pi / 180))).getD ⟨[], []⟩

theorem legRow_spec (N : Nat) (hN : 1 ≤ N) (lat : ℝ) :
    T (legRow N lat) N (fun _ _ => True)
      (Sf (Real.sin (lat * (Real.pi / 180))) |Real.cos (lat * (Real.pi / 180))|)
      (Sd (Real.sin (lat * (Real.pi / 180))) |Real.cos (lat * (Real.pi / 180))|) ∧
    ∀ op od, op.length = tri (N + 1) → od.length = tri (N + 1) →
      legendre Real.sin Real.sqrt nearPole (10 ^ 280) ⟨op, od⟩ N (lat * (Real.pi / 180)) = some (legRow N lat) := by
  obtain ⟨o, e, h⟩ := legendre_spec nearPole nearPole_zero (10 ^ 280) (by positivity)
    ⟨List.replicate (tri (N + 1)) 0, List.replicate (tri (N + 1)) 0⟩ N hN (by simp) (by simp)
    (lat * (Real.pi / 180))
  have hr : legRow N lat = o := by unfold legRow; rw [e]; rfl
  rw [hr]
  refine ⟨h, fun op od hp hd => ?_⟩
  obtain ⟨o', e', h'⟩ := legendre_spec nearPole nearPole_zero (10 ^ 280) (by positivity)
    ⟨op, od⟩ N hN hp hd (lat * (Real.pi / 180))
  rw [e']
  congr 1
  have l1 := tab_unique h'.1 h.1 (fun n m hm hn => by
    rw [(h'.2.2 n m hm hn trivial).1, (h.2.2 n m hm hn trivial).1])
  have l2 := tab_unique h'.2.1 h.2.1 (fun n m hm hn => by
    rw [(h'.2.2 n m hm hn trivial).2, (h.2.2 n m hm hn trivial).2])
  obtain ⟨a, b⟩ := o
  obtain ⟨a', b'⟩ := o'
  simp only at l1 l2
  rw [l1, l2]

theorem tri_rows (N : Nat) : (N + 1) * (N + 2) / 2 = tri (N + 1) := tri_half (N + 1)

theorem legendre_rows (junk junk' : Nat → List ℝ) (hj : ∀ n, (junk n).length = n)
    (hj' : ∀ n, (junk' n).length = n) (lat : NdArray ℝ)
    (lead : List Nat) (S : List Nat → ℝ) (hl : ScalarsOf lat lead S) (N : Nat) (hN : 1 ≤ N) :
    ∃ p d, legendreArr libm nearPole (10 ^ 280) junk junk' lat N = .ok (p, d) ∧
      RowsOf p lead (tri (N + 1)) (fun idx => (legRow N (S idx)).lp) ∧
      RowsOf d lead (tri (N + 1)) (fun idx => (legRow N (S idx)).ldp) := by
  have h := legendreRec_eq libm nearPole (10 ^ 280) N (w := tri (N + 1)) (mem := lat.mem) (fits_none hl) S
    (fun idx hi => read_none hl hi) (fun v => (legRow N v).lp) (fun v => (legRow N v).ldp)
    (fun v op od hp hd => (legRow_spec N hN v).2 op od hp hd)
    (fun v => ⟨(legRow_spec N hN v).1.1, (legRow_spec N hN v).1.2.1⟩)
    (junk (lead ++ [tri (N + 1)]).prod) (junk' (lead ++ [tri (N + 1)]).prod) (hj _) (hj' _)
  refine ⟨_, _, ?_, rows_new (fun i => (legRow_spec N hN _).1.1), rows_new (fun i => (legRow_spec N hN _).1.2.1)⟩
  unfold legendreArr
  rw [if_neg (by omega)]
  simp only [Int.toNat_natCast, hl.dim, tri_rows]
  rw [h]
  rfl

/-- **C63** `legendre` (partial: from degree 1, latitudes from -90 to 90): the new arrays
have the Schmidt semi-normalised Legendre functions and their derivatives by the latitude
in radians at each index. -/
theorem C63_legendre_partial (junk junk' : Nat → List ℝ) (hj : ∀ n, (junk n).length = n)
    (hj' : ∀ n, (junk' n).length = n) (lat : NdArray ℝ)
    (lead : List Nat) (S : List Nat → ℝ) (hl : ScalarsOf lat lead S) (N : Nat) (hN : 1 ≤ N) :
    ∃ p d, legendreArr libm nearPole (10 ^ 280) junk junk' lat N = .ok (p, d) ∧
      p.arr.dim = lead ++ [(N + 1) * (N + 2) / 2] ∧ d.arr.dim = lead ++ [(N + 1) * (N + 2) / 2] ∧
      ∀ idx, Index lead idx → |S idx| ≤ 90 → ∀ n m : Nat, m ≤ n → n ≤ N →
        elem p.mem p.arr.data p.arr.stride (idx ++ [n * (n + 1) / 2 + m]) =
          some (schmidtP n m (S idx * (Real.pi / 180))) ∧
        ∃ v, elem d.mem d.arr.data d.arr.stride (idx ++ [n * (n + 1) / 2 + m]) = some v ∧
          HasDerivAt (schmidtP n m) v (S idx * (Real.pi / 180)) := by
  obtain ⟨p, d, h, hp, hd⟩ := legendre_rows junk junk' hj hj' lat lead S hl N hN
  refine ⟨p, d, h, by rw [hp.dim, tri_rows], by rw [hd.dim, tri_rows], ?_⟩
  intro idx hi hlat n m hm hn
  obtain ⟨h1, h2⟩ := (legRow_spec N hN (S idx)).1.2.2 n m hm hn trivial
  have hal : Alloc ⟨List.replicate (tri (N + 1)) 0, List.replicate (tri (N + 1)) 0⟩ N := by
    have := tri_mul (N + 1)
    constructor <;> simp only [List.length_replicate] <;> exact_mod_cast this
  have e := (legRow_spec N hN (S idx)).2 (List.replicate (tri (N + 1)) 0) (List.replicate (tri (N + 1)) 0)
    (by simp) (by simp)
  have el : legendreR ⟨List.replicate (tri (N + 1)) 0, List.replicate (tri (N + 1)) 0⟩ (S idx) N =
      some (some (legRow N (S idx))) := by
    unfold legendreR legendrePy
    rw [if_neg (by omega), Int.toNat_natCast, e]
  obtain ⟨o1, f1, -, g1⟩ := C19_legendre_partial _ (S idx) N (by omega) hal hlat
  obtain ⟨o2, f2, -, g2⟩ := C20_derivative_partial _ (S idx) N (by omega) hal hlat
  rw [el] at f1 f2
  rw [← Option.some.inj (Option.some.inj f1)] at g1
  rw [← Option.some.inj (Option.some.inj f2)] at g2
  refine ⟨hp.get idx hi _ _ (g1 n m hm (by omega)), ?_⟩
  obtain ⟨v, hv1, hv2⟩ := g2 n m hm (by omega)
  exact ⟨v, hd.get idx hi _ _ hv1, hv2⟩

/-- **C63** Negative degrees and reference radii which are not positive are refused. -/
theorem C63_rejected (junk junk' : Nat → List ℝ) (x : NdArray ℝ) (degree : Int) (a : ℝ) (int fast : Bool) :
    (degree < 0 → loncossinArr libm junk x degree fast = .error .valueError ∧
      legendreArr libm nearPole (10 ^ 280) junk junk' x degree = .error .valueError) ∧
    (degree < 0 ∨ a ≤ 0 → relradpowArr junk x degree a int = .error .valueError) := by
  refine ⟨fun h => ⟨by unfold loncossinArr; rw [if_pos h], by unfold legendreArr; rw [if_pos h]⟩, fun h => ?_⟩
  unfold relradpowArr
  by_cases hd : degree < 0
  · rw [if_pos hd]
  · rw [if_neg hd, if_pos (h.resolve_left hd)]

/-! ### Degree -/

/-- The degree used if the arrays allow the degrees `S`. -/
def UsedDegreeOf (S : Nat → Prop) (degree : Int) (N : Nat) : Prop :=
  ∃ D, S D ∧ (∀ d, S d → d ≤ D) ∧ (N : Int) = if degree < 0 ∨ (D : Int) < degree then (D : Int) else degree

theorem foldl_min : ∀ (l : List Int) (m : Int),
    l.foldl (fun m x => if x < m then x else m) m ≤ m ∧
    (∀ x ∈ l, l.foldl (fun m x => if x < m then x else m) m ≤ x) ∧
    (l.foldl (fun m x => if x < m then x else m) m = m ∨ l.foldl (fun m x => if x < m then x else m) m ∈ l)
  | [], m => ⟨le_rfl, by simp, .inl rfl⟩
  | y :: l, m => by
    obtain ⟨h1, h2, h3⟩ := foldl_min l (if y < m then y else m)
    simp only [List.foldl_cons]
    refine ⟨h1.trans (by split <;> omega), ?_, ?_⟩
    · intro x hx
      rcases List.mem_cons.mp hx with rfl | hx
      · exact h1.trans (by split <;> omega)
      · exact h2 x hx
    · rcases h3 with h | h
      · rw [h]
        split
        · exact .inr (by simp)
        · exact .inl rfl
      · exact .inr (by simp [h])

theorem select_of (x : Nat) (ds : List Nat) (S : Nat → Prop) (hS : ∀ d, S d ↔ ∀ y ∈ x :: ds, d ≤ y)
    (hx : x < 2 ^ 31) (degree : Int) (N : Nat) (h : UsedDegreeOf S degree N) :
    selectDegree ((x :: ds).map (fun d : Nat => (d : Int))) degree = some (N : Int) ∧ S N := by
  obtain ⟨D, h1, h2, h3⟩ := h
  obtain ⟨g1, g2, g3⟩ := foldl_min (ds.map (fun d : Nat => (d : Int))) (x : Int)
  have e : getMaxDegree ((x :: ds).map (fun d : Nat => (d : Int))) = D := by
    simp only [List.map_cons, getMaxDegree]
    apply le_antisymm
    · obtain ⟨y, hy, he⟩ : ∃ y ∈ x :: ds, (ds.map (fun d : Nat => (d : Int))).foldl
          (fun m x => if x < m then x else m) (x : Int) = (y : Int) := by
        rcases g3 with g | g
        · exact ⟨x, by simp, g⟩
        · obtain ⟨y, hy, hye⟩ := List.mem_map.mp g
          exact ⟨y, by simp [hy], hye.symm⟩
      rw [he]
      have hSy : S y := (hS y).mpr (by
        intro z hz
        have : ((y : Nat) : Int) ≤ z := by
          rw [← he]
          rcases List.mem_cons.mp hz with rfl | hz
          · exact g1
          · exact g2 z (List.mem_map.mpr ⟨z, hz, rfl⟩)
        exact_mod_cast this)
      exact_mod_cast h2 y hSy
    · have hD := (hS D).mp h1
      rcases g3 with g | g
      · rw [g]
        exact_mod_cast hD x (by simp)
      · obtain ⟨y, hy, hye⟩ := List.mem_map.mp g
        rw [← hye]
        exact_mod_cast hD y (by simp [hy])
  have hDx : D ≤ x := (hS D).mp h1 x (by simp)
  constructor
  · unfold selectDegree
    simp only [e]
    rw [if_neg (by omega), if_neg (by omega)]
    split at h3
    · rw [if_pos (by omega), h3]
    · rw [if_neg (by omega), h3]
  · rw [hS]
    intro y hy
    have := (hS D).mp h1 y hy
    split at h3 <;> omega

theorem size_degree (fl : Nat → Int) (hf : SqrtDegree fl) (s : Nat) (h1 : 1 ≤ s) (h2 : s < 2 ^ 45) :
    ∃ D : Nat, sizeToDegree fl s = D ∧ D < 2 ^ 31 ∧ ∀ d, ncoef d ≤ s ↔ d ≤ D := by
  obtain ⟨D, hD, e⟩ := (C50_largest fl hf).2 s h1 h2
  refine ⟨D, e, ?_, fun d => ⟨hD.2 d, fun h => (ncoef_mono h).trans hD.1⟩⟩
  have := hD.1
  have := ncoef_two D
  by_contra hc
  have : 2 ^ 31 * 2 ^ 31 ≤ D * D := Nat.mul_le_mul (by omega) (by omega)
  nlinarith

/-! ### Evaluation from the series -/

/-- The degrees allowed by the sizes of the series. -/
def Allowed (n0 n1 n2 n3 d : Nat) : Prop := ncoef d ≤ n0 ∧ ncoef d ≤ n1 ∧ d + 1 ≤ n2 ∧ d + 1 ≤ n3

/-- Items of the series. -/
def item0 (l : List ℝ) (k : Nat) : ℝ := (l[k]?).getD 0

theorem ncoef_tri (d : Nat) : ncoef d = tri (d + 1) := by
  have := ncoef_two d
  have := tri_mul (d + 1)
  nlinarith

theorem rows_ok {N : Nat} {C L : List (ℝ × ℝ)} {P D R : List ℝ} (h0 : ncoef N ≤ C.length)
    (h1 : ncoef N ≤ P.length) (h1' : ncoef N ≤ D.length) (h2 : N + 1 ≤ R.length) (h3 : N + 1 ≤ L.length) :
    Ok N C L P D R (coefC C) (fun k => (L[k]?).getD (0, 0)) (item0 P) (item0 D) (item0 R) := by
  rw [ncoef_tri] at h0 h1 h1'
  exact ⟨holds_getD C _ _ (fun k hk => by omega), holds_getD L _ _ (fun k hk => by omega),
    holds_getD P _ _ (fun k hk => by omega), holds_getD D _ _ (fun k hk => by omega),
    holds_getD R _ _ (fun k hk => by omega)⟩

/-- Sum of the potential from given series. -/
noncomputable def seriesSum (N : Nat) (G H : Nat → Nat → ℝ) (c s : Nat → ℝ) (P : Nat → Nat → ℝ) (R : Nat → ℝ) : ℝ :=
  R 0 * G 0 0 + ∑ n ∈ Finset.Icc 1 N, R n * (G n 0 * P n 0 +
    ∑ m ∈ Finset.Icc 1 n, (G n m * c m + H n m * s m) * P n m)

theorem sum_shift (f : Nat → ℝ) (N : Nat) : ∑ i ∈ Finset.range N, f (i + 1) = ∑ i ∈ Finset.Icc 1 N, f i := by
  rw [Finset.range_eq_Ico, Finset.sum_Ico_add' f 0 N 1]
  rfl

theorem vSum_series (N : Nat) (C L : List (ℝ × ℝ)) (P R : List ℝ) :
    vSum (coefC C) (fun k => (L[k]?).getD (0, 0)) (item0 P) (item0 R) N =
      seriesSum N (coefG C) (coefH C) (fun k => ((L[k]?).getD (0, 0)).1) (fun k => ((L[k]?).getD (0, 0)).2)
        (fun n m => item0 P (n * (n + 1) / 2 + m)) (item0 R) := by
  unfold vSum seriesSum vI ca
  rw [sum_shift (fun i => item0 R i * ((coefC C (tri i)).1 * item0 P (tri i) + ∑ j ∈ Finset.range i,
    ((coefC C (tri i + (j + 1))).1 * ((L[j + 1]?).getD (0, 0)).1 +
      (coefC C (tri i + (j + 1))).2 * ((L[j + 1]?).getD (0, 0)).2) * item0 P (tri i + (j + 1))))]
  congr 1
  · rw [mul_comm]
    rfl
  · refine Finset.sum_congr rfl (fun i _ => ?_)
    congr 1
    simp only [tri_half, coefG, coefH]
    congr 1
    rw [sum_shift (fun j => ((coefC C (tri i + j)).1 * ((L[j]?).getD (0, 0)).1 +
      (coefC C (tri i + j)).2 * ((L[j]?).getD (0, 0)).2) * item0 P (tri i + j))]
    rfl

/-- Leading dimensions of several arrays: all are the first ones of `lead`, one has all. -/
def MatchAll (ls : List (List Nat)) (lead : List Nat) : Prop := (∀ l ∈ ls, l <+: lead) ∧ lead ∈ ls

theorem shapes_match (l : List (List Nat × List Nat)) (lead : List Nat) (hm : MatchAll (l.map Prod.fst) lead)
    (h2 : ∀ e ∈ l, e.2.length = 2 → e.2[1]? = some 2) :
    checkShapes (commonShape (l.map (fun e => (e.1 ++ e.2, e.2.length)))) 0
        (l.map (fun e => (e.1 ++ e.2, e.2.length))) = true ∧
    (commonShape (l.map (fun e => (e.1 ++ e.2, e.2.length)))).dims.take
        (commonShape (l.map (fun e => (e.1 ++ e.2, e.2.length)))).ndim.toNat = lead := by
  have h1 : ∀ e ∈ l, e.1 <+: lead := fun e he => hm.1 e.1 (List.mem_map.mpr ⟨e, he, rfl⟩)
  obtain ⟨r, hcd, hcn⟩ := commonShape_spec l lead h1 (by
    obtain ⟨e, he, hel⟩ := List.mem_map.mp hm.2
    exact ⟨e, he, hel⟩)
  exact ⟨checkShapes_spec _ lead r hcd l 0 h1 h2, by rw [hcd, hcn, Int.toNat_natCast, List.take_left]⟩

theorem rows_size {c : NdArray ℝ} {lc : List Nat} {n : Nat} {C : List Nat → List (ℝ × ℝ)}
    (hc : PairsOf c lc n C) : c.arr.dim[c.arr.dim.length - 2]? = some n ∧ minNdim c.arr 2 = some () := by
  rw [hc.dim, List.getElem?_append_right (by simp)]
  exact ⟨by simp, by simp [minNdim, hc.dim]⟩

theorem row_size {c : NdArray ℝ} {lc : List Nat} {n : Nat} {R : List Nat → List ℝ}
    (hc : RowsOf c lc n R) : c.arr.dim[c.arr.dim.length - 1]? = some n ∧ minNdim c.arr 1 = some () := by
  rw [hc.dim, List.getElem?_append_right (by simp)]
  exact ⟨by simp, by simp [minNdim, hc.dim]⟩

/-- **C49** for `spharpot`: arrays of radii, coefficients and series with matching leading
dimensions; each item of the new array is the potential from the coefficients and series
at its index, up to the largest degree allowed by all arrays and not above the requested
one (if this is not negative). -/
theorem C49_spharpot (fl : Nat → Int) (hf : SqrtDegree fl) (junk : Nat → List ℝ) (hj : ∀ n, (junk n).length = n)
    (rad coef lp rrp lcs : NdArray ℝ) (lr lc ll lq lt lead : List Nat) (n0 n1 n2 n3 : Nat)
    (S : List Nat → ℝ) (C L : List Nat → List (ℝ × ℝ)) (P R : List Nat → List ℝ)
    (hS : ScalarsOf rad lr S) (hC : PairsOf coef lc n0 C) (hP : RowsOf lp ll n1 P) (hR : RowsOf rrp lq n2 R)
    (hL : PairsOf lcs lt n3 L) (hm : MatchAll [lr, lc, ll, lq, lt] lead)
    (h0 : 1 ≤ n0 ∧ n0 < 2 ^ 45) (h1 : 1 ≤ n1 ∧ n1 < 2 ^ 45) (h2 : 1 ≤ n2) (h3 : 1 ≤ n3) (degree : Int) (N : Nat)
    (hd : UsedDegreeOf (Allowed n0 n1 n2 n3) degree N) :
    ∃ data, spharpot fl junk rad coef lp rrp lcs degree = .ok (lead, data) ∧ data.length = lead.prod ∧
      ∀ idx, Index lead idx → data[rank lead idx]? = some (S (idx.take lr.length) *
        seriesSum N (coefG (C (idx.take lc.length))) (coefH (C (idx.take lc.length)))
          (fun k => (((L (idx.take lt.length))[k]?).getD (0, 0)).1)
          (fun k => (((L (idx.take lt.length))[k]?).getD (0, 0)).2)
          (fun n m => item0 (P (idx.take ll.length)) (n * (n + 1) / 2 + m)) (item0 (R (idx.take lq.length)))) := by
  obtain ⟨D0, e0, b0, i0⟩ := size_degree fl hf n0 h0.1 h0.2
  obtain ⟨D1, e1, -, i1⟩ := size_degree fl hf n1 h1.1 h1.2
  obtain ⟨hsel, hN⟩ := select_of D0 [D1, n2 - 1, n3 - 1] (Allowed n0 n1 n2 n3) (by
    intro d
    unfold Allowed
    rw [i0, i1]
    simp only [List.mem_cons, List.not_mem_nil, or_false, forall_eq_or_imp, forall_eq]
    omega) b0 degree N hd
  simp only [List.map_cons, List.map_nil, Nat.cast_sub h2, Nat.cast_sub h3, Nat.cast_one] at hsel
  obtain ⟨hcs, hlead⟩ := shapes_match [(lr, []), (lc, [n0, 2]), (ll, [n1]), (lq, [n2]), (lt, [n3, 2])] lead hm
    (by simp)
  simp only [List.map_cons, List.map_nil, List.length_cons, List.length_nil, Nat.zero_add, Nat.reduceAdd,
    List.append_nil] at hcs hlead
  rw [← hC.dim, ← hP.dim, ← hR.dim, ← hL.dim, ← hS.dim] at hcs hlead
  have p0 := hm.1 lr (by simp)
  have p1 := hm.1 lc (by simp)
  have p2 := hm.1 ll (by simp)
  have p3 := hm.1 lq (by simp)
  have p4 := hm.1 lt (by simp)
  set V : List Nat → ℝ := fun idx => S (idx.take lr.length) *
        seriesSum N (coefG (C (idx.take lc.length))) (coefH (C (idx.take lc.length)))
          (fun k => (((L (idx.take lt.length))[k]?).getD (0, 0)).1)
          (fun k => (((L (idx.take lt.length))[k]?).getD (0, 0)).2)
          (fun n m => item0 (P (idx.take ll.length)) (n * (n + 1) / 2 + m)) (item0 (R (idx.take lq.length))) with hV
  have hev : ∀ idx, Index lead idx → evalV N (S (idx.take lr.length)) (C (idx.take lc.length))
      (L (idx.take lt.length)) (P (idx.take ll.length)) (R (idx.take lq.length)) = some (V idx) := by
    intro idx hi
    have ok := rows_ok (N := N) (C := C (idx.take lc.length)) (L := L (idx.take lt.length))
      (P := P (idx.take ll.length)) (D := P (idx.take ll.length)) (R := R (idx.take lq.length))
      (by rw [hC.len _ (index_take p1 hi)]; exact hN.1) (by rw [hP.len _ (index_take p2 hi)]; exact hN.2.1)
      (by rw [hP.len _ (index_take p2 hi)]; exact hN.2.1) (by rw [hR.len _ (index_take p3 hi)]; exact hN.2.2.1)
      (by rw [hL.len _ (index_take p4 hi)]; exact hN.2.2.2)
    rw [evalV_spec ok, vSum_series, mul_comm]
  have hw := walk_mapM (gs := [none, some 0, some 2, some 1, some 1, some 2]) (core := []) (lead := lead)
    (as := [contiguous lead, rad.arr, coef.arr, lp.arr, rrp.arr, lcs.arr])
    (leaf := fun arrs buf => match arrs with
    | [pot, rad', coef', lp', rrp', lcs'] => do
      let r ← rad.mem rad'.data
      let c ← readCoef coef.mem coef'
      let p ← readRow lp.mem lp'
      let q ← readRow rrp.mem rrp'
      let l ← readCoef lcs.mem lcs'
      let v ← evalV N r c l p q
      wrList buf pot.data [v]
    | _ => none)
    (.cons (fits_new_nil lead) (.cons (fits_scalar hS p0) (.cons (fits_pairs hC p1) (.cons (fits_row hP p2)
      (.cons (fits_row hR p3) (.cons (fits_pairs hL p4) .nil)))))) 1
    (fun idx => some [V idx]) (fun idx => (sub (contiguous lead) idx).data)
    (by
      intro idx hi s
      have hi := mem_indices.mp hi
      simp only [List.zipWith_cons_cons, List.zipWith_nil_left, read_s hS p0 hi, read_coef hC p1 hi,
        read_row hP p2 hi, read_row hR p3 hi, read_coef hL p4 hi, hev idx hi, Option.bind_eq_bind,
        Option.bind_some]
      rfl)
    (by intro idx v h; rw [← Option.some.inj h]; rfl) (addr_new_nil lead)
    (junk lead.prod) (by rw [hj]; simp)
  rw [mapM_some_map, List.append_nil] at hw
  refine ⟨((indices lead).map (fun idx => [V idx])).flatten, ?_, ?_, ?_⟩
  · have hw' : spharpotRec N rad.mem coef.mem lp.mem rrp.mem lcs.mem lead
        [contiguous lead, rad.arr, coef.arr, lp.arr, rrp.arr, lcs.arr] (junk lead.prod) =
        some ((indices lead).map (fun idx => [V idx])).flatten := hw
    unfold spharpot
    simp only [(rows_size hC).1, (rows_size hC).2, (rows_size hL).1, (rows_size hL).2, (row_size hP).1,
      (row_size hP).2, (row_size hR).1, (row_size hR).2, e0, e1, orValueError, orMemory, bind, Except.bind]
    rw [hsel]
    simp only [hcs, if_true, hlead, Int.toNat_natCast, hw']
    rfl
  · rw [flatten_length 1 _ (by
      intro b hb
      obtain ⟨i, -, rfl⟩ := List.mem_map.mp hb
      rfl), List.length_map, indices_length]
    simp
  · intro idx hi
    have := block_get (w := 1) (F := fun idx => [V idx]) (fun i => rfl) hi (k := 0) (by omega)
    simpa using this

/-- The degrees allowed by the sizes of the series with the derivatives. -/
def Allowed5 (n0 n1 n1' n2 n3 d : Nat) : Prop :=
  ncoef d ≤ n0 ∧ ncoef d ≤ n1 ∧ ncoef d ≤ n1' ∧ d + 1 ≤ n2 ∧ d + 1 ≤ n3

/-- Component of a gradient. -/
def gradComp (g : Grad ℝ) (k : Fin 3) : ℝ := match k with
  | 0 => g.el
  | 1 => g.az
  | 2 => g.rd

/-- The gradient of one point from the series. -/
noncomputable def gradR (N : Nat) (lat : ℝ) (C L : List (ℝ × ℝ)) (P D R : List ℝ) (int : Bool) : Option (Grad ℝ) :=
  evalDv Real.sin Real.cos Real.sqrt nearPole N (lat * (Real.pi / 180)) C L P D R int

theorem gradR_some {N : Nat} {C L : List (ℝ × ℝ)} {P D R : List ℝ} (h0 : ncoef N ≤ C.length)
    (h1 : ncoef N ≤ P.length) (h1' : ncoef N ≤ D.length) (h2 : N + 1 ≤ R.length) (h3 : N + 1 ≤ L.length)
    (lat : ℝ) (int : Bool) : ∃ g, gradR N lat C L P D R int = some g := by
  have ok := rows_ok h0 h1 h1' h2 h3
  unfold gradR
  rw [evalDv_spec ok]
  unfold fixPole
  split
  · rename_i h
    rw [dvazPole_spec ok h.1]
    exact ⟨_, rfl⟩
  · exact ⟨_, rfl⟩

/-- **C49** for `sphargrd`: each vector of the new array is the gradient of the single
evaluation from the coefficients and series at its index. -/
theorem C49_sphargrd (fl : Nat → Int) (hf : SqrtDegree fl) (junk : Nat → List ℝ) (hj : ∀ n, (junk n).length = n)
    (lat coef lp ldp rrp lcs : NdArray ℝ) (lr lc ll ld lq lt lead : List Nat) (n0 n1 n1' n2 n3 : Nat)
    (S : List Nat → ℝ) (C L : List Nat → List (ℝ × ℝ)) (P D R : List Nat → List ℝ)
    (hS : ScalarsOf lat lr S) (hC : PairsOf coef lc n0 C) (hP : RowsOf lp ll n1 P) (hD : RowsOf ldp ld n1' D)
    (hR : RowsOf rrp lq n2 R) (hL : PairsOf lcs lt n3 L) (hm : MatchAll [lr, lc, ll, ld, lq, lt] lead)
    (h0 : 1 ≤ n0 ∧ n0 < 2 ^ 45) (h1 : 1 ≤ n1 ∧ n1 < 2 ^ 45) (h1' : 1 ≤ n1' ∧ n1' < 2 ^ 45)
    (h2 : 1 ≤ n2) (h3 : 1 ≤ n3) (int : Bool) (degree : Int) (N : Nat)
    (hd : UsedDegreeOf (Allowed5 n0 n1 n1' n2 n3) degree N) :
    ∃ data, sphargrd libm nearPole fl junk lat coef lp ldp rrp lcs int degree = .ok (lead, data) ∧
      data.length = (lead ++ [3]).prod ∧
      ∀ idx, Index lead idx → ∃ g, gradR N (S (idx.take lr.length)) (C (idx.take lc.length))
          (L (idx.take lt.length)) (P (idx.take ll.length)) (D (idx.take ld.length)) (R (idx.take lq.length)) int =
            some g ∧
        ∀ k : Fin 3, data[rank (lead ++ [3]) (idx ++ [k.val])]? = some (gradComp g k) := by
  obtain ⟨D0, e0, b0, i0⟩ := size_degree fl hf n0 h0.1 h0.2
  obtain ⟨D1, e1, -, i1⟩ := size_degree fl hf n1 h1.1 h1.2
  obtain ⟨D1', e1', -, i1'⟩ := size_degree fl hf n1' h1'.1 h1'.2
  obtain ⟨hsel, hN⟩ := select_of D0 [D1, D1', n2 - 1, n3 - 1] (Allowed5 n0 n1 n1' n2 n3) (by
    intro d
    unfold Allowed5
    rw [i0, i1, i1']
    simp only [List.mem_cons, List.not_mem_nil, or_false, forall_eq_or_imp, forall_eq]
    omega) b0 degree N hd
  simp only [List.map_cons, List.map_nil, Nat.cast_sub h2, Nat.cast_sub h3, Nat.cast_one] at hsel
  obtain ⟨hcs, hlead⟩ := shapes_match
    [(lr, []), (lc, [n0, 2]), (ll, [n1]), (ld, [n1']), (lq, [n2]), (lt, [n3, 2])] lead hm (by simp)
  simp only [List.map_cons, List.map_nil, List.length_cons, List.length_nil, Nat.zero_add, Nat.reduceAdd,
    List.append_nil] at hcs hlead
  rw [← hC.dim, ← hP.dim, ← hD.dim, ← hR.dim, ← hL.dim, ← hS.dim] at hcs hlead
  have p0 := hm.1 lr (by simp)
  have p1 := hm.1 lc (by simp)
  have p2 := hm.1 ll (by simp)
  have p2' := hm.1 ld (by simp)
  have p3 := hm.1 lq (by simp)
  have p4 := hm.1 lt (by simp)
  have hex : ∀ idx, Index lead idx → ∃ g, gradR N (S (idx.take lr.length)) (C (idx.take lc.length))
      (L (idx.take lt.length)) (P (idx.take ll.length)) (D (idx.take ld.length)) (R (idx.take lq.length)) int =
        some g := by
    intro idx hi
    exact gradR_some
      (by rw [hC.len _ (index_take p1 hi)]; exact hN.1) (by rw [hP.len _ (index_take p2 hi)]; exact hN.2.1)
      (by rw [hD.len _ (index_take p2' hi)]; exact hN.2.2.1) (by rw [hR.len _ (index_take p3 hi)]; exact hN.2.2.2.1)
      (by rw [hL.len _ (index_take p4 hi)]; exact hN.2.2.2.2) _ _
  set V : List Nat → V3 ℝ := fun idx => ((gradR N (S (idx.take lr.length)) (C (idx.take lc.length))
      (L (idx.take lt.length)) (P (idx.take ll.length)) (D (idx.take ld.length)) (R (idx.take lq.length)) int).map
        (fun g => (⟨g.el, g.az, g.rd⟩ : V3 ℝ))).getD ⟨0, 0, 0⟩ with hV
  have hw := walk_mapM (gs := [none, some 0, some 2, some 1, some 1, some 1, some 2]) (core := [3]) (lead := lead)
    (as := [contiguous (lead ++ [3]), lat.arr, coef.arr, lp.arr, ldp.arr, rrp.arr, lcs.arr])
    (leaf := fun arrs buf => match arrs with
    | [grd, lat', coef', lp', ldp', rrp', lcs'] => do
      let t ← lat.mem lat'.data
      let c ← readCoef coef.mem coef'
      let p ← readRow lp.mem lp'
      let d ← readRow ldp.mem ldp'
      let q ← readRow rrp.mem rrp'
      let l ← readCoef lcs.mem lcs'
      let g ← evalDv libm.sin libm.cos libm.sqrt nearPole N (t * dg2rad libm) c l p d q int
      wrList buf grd.data [g.el, g.az, g.rd]
    | _ => none)
    (.cons (fits_new lead [3]) (.cons (fits_scalar hS p0) (.cons (fits_pairs hC p1) (.cons (fits_row hP p2)
      (.cons (fits_row hD p2') (.cons (fits_row hR p3) (.cons (fits_pairs hL p4) .nil))))))) 3
    (fun idx => some [(V idx).x, (V idx).y, (V idx).z]) (fun idx => (sub (contiguous (lead ++ [3])) idx).data)
    (by
      intro idx hi s
      have hi := mem_indices.mp hi
      obtain ⟨g, hg⟩ := hex idx hi
      have hg' : evalDv libm.sin libm.cos libm.sqrt nearPole N (S (idx.take lr.length) * dg2rad libm)
        (C (idx.take lc.length)) (L (idx.take lt.length)) (P (idx.take ll.length)) (D (idx.take ld.length))
        (R (idx.take lq.length)) int = some g := hg
      have hvg : V idx = ⟨g.el, g.az, g.rd⟩ := by rw [hV]; simp only [hg]; rfl
      simp only [List.zipWith_cons_cons, List.zipWith_nil_left, read_s hS p0 hi, read_coef hC p1 hi,
        read_row hP p2 hi, read_row hD p2' hi, read_row hR p3 hi, read_coef hL p4 hi, hg', Option.bind_eq_bind,
        Option.bind_some, hvg]
      rfl)
    (by intro idx v h; rw [← Option.some.inj h]; rfl) (addr_new lead [3])
    (junk (lead ++ [3]).prod) (by rw [hj]; simp)
  rw [mapM_some_map] at hw
  have hr := vectors_result (F := V) (lead := lead)
    (data := ((indices lead).map (fun idx => [(V idx).x, (V idx).y, (V idx).z])).flatten)
    (by rw [mapM_some_map]; rfl)
  refine ⟨((indices lead).map (fun idx => [(V idx).x, (V idx).y, (V idx).z])).flatten, ?_, hr.1, ?_⟩
  · have hw' : sphargrdRec libm nearPole N int lat.mem coef.mem lp.mem ldp.mem rrp.mem lcs.mem (lead ++ [3])
        [contiguous (lead ++ [3]), lat.arr, coef.arr, lp.arr, ldp.arr, rrp.arr, lcs.arr]
        (junk (lead ++ [3]).prod) =
        some ((indices lead).map (fun idx => [(V idx).x, (V idx).y, (V idx).z])).flatten := hw
    unfold sphargrd
    simp only [(rows_size hC).1, (rows_size hC).2, (rows_size hL).1, (rows_size hL).2, (row_size hP).1,
      (row_size hP).2, (row_size hD).1, (row_size hD).2, (row_size hR).1, (row_size hR).2, e0, e1, e1', orValueError,
      orMemory, bind, Except.bind]
    rw [hsel]
    simp only [hcs, if_true, hlead, Int.toNat_natCast, hw']
    rfl
  · intro idx hi
    obtain ⟨g, hg⟩ := hex idx hi
    have hvg : V idx = ⟨g.el, g.az, g.rd⟩ := by rw [hV]; simp only [hg]; rfl
    refine ⟨g, hg, fun k => ?_⟩
    rw [hr.2 idx hi k, hvg]
    fin_cases k <;> rfl

/-! ### The functions combined -/

theorem lonRow_get {d m : Nat} (h : m ≤ d) (lon : ℝ) :
    (lonRow d lon)[m]? = some (Verif.Fourier.cis (m * (lon * (Real.pi / 180)))) := by
  unfold lonRow
  rw [List.getElem?_map, List.getElem?_range (by omega)]
  rfl

theorem radRow_get {d n : Nat} (h : n ≤ d) (a : ℝ) (ha : 0 < a) (int : Bool) (r : ℝ) :
    (radRow d a int r)[n]? = some (rpow int (r / a) n) := by
  unfold radRow
  rw [List.getElem?_map, List.getElem?_range (by omega)]
  simp only [Option.map_some, Option.some.injEq]
  unfold rpow
  cases int
  · simp only [Bool.false_eq_true, if_false]
    rcases n with _ | n
    · simp
    · rw [if_neg (by omega)]
      simp
  · simp only [if_true]
    rw [one_div_div]
    exact zpow_natCast (a / r) (n + 2)

/-- The series of the three functions at one point are those of the evaluation. -/
theorem rows_filled {N dl dr dn : Nat} (hl : 1 ≤ dl) (h1 : N ≤ dl) (h2 : N ≤ dr) (h3 : N ≤ dn) (a : ℝ) (ha : 0 < a)
    (int : Bool) (lat lon r : ℝ) :
    Filled N int (r / a) (Real.sin (lat * (Real.pi / 180))) |Real.cos (lat * (Real.pi / 180))|
      (lon * (Real.pi / 180)) (fun k => ((lonRow dn lon)[k]?).getD (0, 0)) (item0 (legRow dl lat).lp)
      (item0 (legRow dl lat).ldp) (item0 (radRow dr a int r)) := by
  refine ⟨fun m hm => ?_, fun n m hm hn => ?_, fun n m hm hn => ?_, fun n hn => ?_⟩
  · simp only [lonRow_get (hm.trans h3)]
    rfl
  · unfold item0
    rw [((legRow_spec dl hl lat).1.2.2 n m hm (hn.trans h1) trivial).1]
    rfl
  · unfold item0
    rw [((legRow_spec dl hl lat).1.2.2 n m hm (hn.trans h1) trivial).2]
    rfl
  · unfold item0
    rw [radRow_get (hn.trans h2) a ha]
    rfl

theorem lat_rad {lat : ℝ} (h : |lat| ≤ 90) : |lat * (Real.pi / 180)| ≤ Real.pi / 2 := by
  rw [abs_mul, abs_of_pos (show 0 < Real.pi / 180 by positivity)]
  have : 0 < Real.pi := Real.pi_pos
  nlinarith

theorem filled_gradient {N : Nat} {int : Bool} {a clat clon crad : ℝ} {coef : List (ℝ × ℝ)}
    {L : Nat → ℝ × ℝ} {P D R : Nat → ℝ} (ha : 0 < a) (hr : 0 < crad) (hlat : |clat| ≤ Real.pi / 2)
    (f : Filled N int (crad / a) (Real.sin clat) |Real.cos clat| clon L P D R) :
    HasDerivAt (fun φ => potential int a N (coefG coef) (coefH coef) crad φ clon)
      (crad * elSum (coefC coef) L D R N) clat ∧
    HasDerivAt (fun lon => potential int a N (coefG coef) (coefH coef) crad clat lon)
      (crad * azSum (coefC coef) L P R N) clon ∧
    HasDerivAt (fun r => potential int a N (coefG coef) (coefH coef) r clat clon)
      (rdSum (coefC coef) L P R int N) crad := by
  have hS : ∀ n m, schmidtP n m clat = Sf (Real.sin clat) (Real.cos clat) n m := fun n m => schmidtP_eq n m clat
  refine ⟨?_, ?_, ?_⟩
  · refine HasDerivAt.congr_deriv (potential_lat int a N _ _ crad clat clon) ?_
    rw [f.elSum, cos_abs hlat, Finset.mul_sum]
    refine Finset.sum_congr rfl (fun n _ => ?_)
    rw [radf_eq int ha.ne' hr.ne']; ring
  · refine HasDerivAt.congr_deriv (potential_lon int a N _ _ crad clat clon) ?_
    rw [f.azSum, cos_abs hlat, mul_neg, Finset.mul_sum]
    congr 1
    refine Finset.sum_congr rfl (fun n _ => ?_)
    rw [radf_eq int ha.ne' hr.ne']
    simp only [hS]
    ring
  · refine HasDerivAt.congr_deriv (potential_rad int N _ _ clat clon ha.ne' hr.ne') ?_
    rw [f.rdSum, cos_abs hlat]
    refine Finset.sum_congr rfl (fun n _ => ?_)
    simp only [hS]

theorem fixPole_el {N : Nat} {elv : ℝ} {coef lcs : List (ℝ × ℝ)} {rrp : List ℝ} {g0 g : Grad ℝ}
    (h : fixPole Real.sin Real.cos Real.sqrt nearPole N elv coef lcs rrp g0 = some g) : g.el = g0.el := by
  unfold fixPole at h
  split at h
  · obtain ⟨az, -, e⟩ := Option.bind_eq_some_iff.mp h
    rw [← Option.some.inj e]
  · rw [Option.some.inj h]

theorem fixPole_rd {N : Nat} {elv : ℝ} {coef lcs : List (ℝ × ℝ)} {rrp : List ℝ} {g0 g : Grad ℝ}
    (h : fixPole Real.sin Real.cos Real.sqrt nearPole N elv coef lcs rrp g0 = some g) : g.rd = g0.rd := by
  unfold fixPole at h
  split at h
  · obtain ⟨az, -, e⟩ := Option.bind_eq_some_iff.mp h
    rw [← Option.some.inj e]
  · rw [Option.some.inj h]

theorem fixPole_far {N : Nat} {elv : ℝ} {coef lcs : List (ℝ × ℝ)} {rrp : List ℝ} {g0 : Grad ℝ}
    (h : 1 / 10 ^ 10 ≤ |Real.cos elv|) :
    fixPole Real.sin Real.cos Real.sqrt nearPole N elv coef lcs rrp g0 = some g0 := by
  unfold fixPole
  rw [if_neg]
  rintro ⟨-, hn⟩
  unfold nearPole at hn
  simp only [decide_eq_true_eq] at hn
  linarith

/-- Two sets of series of the same point give the same gradient. -/
theorem fixPole_filled {N : Nat} (hN : 1 ≤ N) {int : Bool} {x s c lon elv : ℝ} {coef : List (ℝ × ℝ)}
    {l1 l2 : List (ℝ × ℝ)} {p1 p2 d1 d2 r1 r2 : List ℝ} {L1 L2 : Nat → ℝ × ℝ} {P1 P2 D1 D2 R1 R2 : Nat → ℝ}
    (o1 : Ok N coef l1 p1 d1 r1 (coefC coef) L1 P1 D1 R1) (o2 : Ok N coef l2 p2 d2 r2 (coefC coef) L2 P2 D2 R2)
    (f1 : Filled N int x s c lon L1 P1 D1 R1) (f2 : Filled N int x s c lon L2 P2 D2 R2) :
    fixPole Real.sin Real.cos Real.sqrt nearPole N elv coef l1 r1
        (grad0 (coefC coef) L1 P1 D1 R1 (Real.cos elv) int N) =
      fixPole Real.sin Real.cos Real.sqrt nearPole N elv coef l2 r2
        (grad0 (coefC coef) L2 P2 D2 R2 (Real.cos elv) int N) := by
  have hg : grad0 (coefC coef) L1 P1 D1 R1 (Real.cos elv) int N =
      grad0 (coefC coef) L2 P2 D2 R2 (Real.cos elv) int N := by
    unfold grad0
    rw [f1.elSum, f2.elSum, f1.azSum, f2.azSum, f1.rdSum, f2.rdSum]
  have hp : dvazPole Real.sin Real.sqrt N elv coef l1 r1 = dvazPole Real.sin Real.sqrt N elv coef l2 r2 := by
    rw [dvazPole_spec o1 hN, dvazPole_spec o2 hN]
    congr 2
    refine Finset.sum_congr rfl (fun i hi => ?_)
    rw [Finset.mem_range] at hi
    rw [f1.cb coef hN, f2.cb coef hN, f1.hR _ (by omega), f2.hR _ (by omega)]
  unfold fixPole
  rw [hg, hp]

/-- The degrees allowed by the coefficients and by the degrees of the three series. -/
def AllowedDegree (n0 dl dr dn d : Nat) : Prop := ncoef d ≤ n0 ∧ d ≤ dl ∧ d ≤ dr ∧ d ≤ dn

theorem used_congr {A B : Nat → Prop} (h : ∀ d, A d ↔ B d) {degree : Int} {N : Nat} (hd : UsedDegreeOf A degree N) :
    UsedDegreeOf B degree N := by
  have : A = B := funext fun d => propext (h d)
  rwa [← this]

theorem used_allowed {A : Nat → Prop} {degree : Int} {N : Nat} (hd : UsedDegreeOf A degree N)
    (h : ∀ d d', d ≤ d' → A d' → A d) : A N := by
  obtain ⟨D, h1, -, h3⟩ := hd
  refine h N D ?_ h1
  split at h3 <;> omega

theorem tri_pos (d : Nat) : 1 ≤ tri (d + 1) := by
  have := ncoef_two d
  rw [← ncoef_tri]
  nlinarith

theorem tri_le_iff {d D : Nat} : ncoef d ≤ tri (D + 1) ↔ d ≤ D := by
  rw [← ncoef_tri]
  refine ⟨fun h => ?_, ncoef_mono⟩
  by_contra hc
  have h1 : ncoef (D + 1) ≤ ncoef d := ncoef_mono (by omega)
  have := ncoef_two D
  have := ncoef_two (D + 1)
  nlinarith

/-- **C63**, `spharpot` of the arrays returned by `legendre`, `relradpow` and `loncossin`:
the items are the spherical harmonic expansions at the given positions, up to the largest
degree which the coefficients and the three series allow.  The series are computed for
the arrays of latitudes, radii and longitudes, which may have different numbers of leading
dimensions. -/
theorem C63_potential_partial (fl : Nat → Int) (hf : SqrtDegree fl) (j1 j2 j3 j4 j5 : Nat → List ℝ)
    (hj1 : ∀ n, (j1 n).length = n) (hj2 : ∀ n, (j2 n).length = n) (hj3 : ∀ n, (j3 n).length = n)
    (hj4 : ∀ n, (j4 n).length = n) (hj5 : ∀ n, (j5 n).length = n)
    (lat lon rad coef : NdArray ℝ) (ll lt lr lc lead : List Nat) (n0 : Nat)
    (A B S : List Nat → ℝ) (C : List Nat → List (ℝ × ℝ)) (hA : ScalarsOf lat ll A) (hB : ScalarsOf lon lt B)
    (hS : ScalarsOf rad lr S) (hC : PairsOf coef lc n0 C) (hm : MatchAll [ll, lt, lr, lc] lead)
    (h0 : 1 ≤ n0 ∧ n0 < 2 ^ 45) (dl dr dn : Nat) (hl : 1 ≤ dl ∧ ncoef dl < 2 ^ 45) (a : ℝ) (ha : 0 < a)
    (int fast : Bool) (degree : Int) (N : Nat) (hd : UsedDegreeOf (AllowedDegree n0 dl dr dn) degree N) :
    ∃ lp ldp rrp lcs data, legendreArr libm nearPole (10 ^ 280) j1 j2 lat dl = .ok (lp, ldp) ∧
      relradpowArr j3 rad dr a int = .ok rrp ∧ loncossinArr libm j4 lon dn fast = .ok lcs ∧
      spharpot fl j5 rad coef lp rrp lcs degree = .ok (lead, data) ∧
      ∀ idx, Index lead idx → |A (idx.take ll.length)| ≤ 90 → 0 < S (idx.take lr.length) →
        data[rank lead idx]? = some (potential int a N (coefG (C (idx.take lc.length)))
          (coefH (C (idx.take lc.length))) (S (idx.take lr.length))
          (A (idx.take ll.length) * (Real.pi / 180)) (B (idx.take lt.length) * (Real.pi / 180))) := by
  obtain ⟨lp, ldp, e1, hP, -⟩ := legendre_rows j1 j2 hj1 hj2 lat ll A hA dl hl.1
  obtain ⟨rrp, e2, hR⟩ := relradpow_rows j3 hj3 rad lr S hS dr a ha int
  obtain ⟨lcs, e3, hL⟩ := loncossin_rows j4 hj4 lon lt B hB dn fast
  rw [ncoef_tri] at hl
  have hN := hd
  have hm' : MatchAll [lr, lc, ll, lr, lt] lead := by
    refine ⟨fun l h => hm.1 l ?_, ?_⟩
    · simp only [List.mem_cons, List.not_mem_nil, or_false] at h ⊢
      tauto
    · have := hm.2
      simp only [List.mem_cons, List.not_mem_nil, or_false] at this ⊢
      tauto
  have hd' := used_congr (B := Allowed n0 (tri (dl + 1)) (dr + 1) (dn + 1)) (fun d => by
    unfold AllowedDegree Allowed
    rw [tri_le_iff]
    omega) hd
  obtain ⟨data, e4, -, h4⟩ := C49_spharpot fl hf j5 hj5 rad coef lp rrp lcs lr lc ll lr lt lead n0 (tri (dl + 1))
    (dr + 1) (dn + 1) S C _ _ _ hS hC hP hR hL hm' h0 ⟨tri_pos dl, hl.2⟩ (by omega) (by omega) degree N hd'
  refine ⟨lp, ldp, rrp, lcs, data, e1, e2, e3, e4, fun idx hi hla hr => ?_⟩
  obtain ⟨b1, b2, b3, b4⟩ : AllowedDegree n0 dl dr dn N := used_allowed hN (fun d d' h h' =>
    ⟨(ncoef_mono h).trans h'.1, h.trans h'.2.1, h.trans h'.2.2.1, h.trans h'.2.2.2⟩)
  rw [h4 idx hi]
  have hf := rows_filled hl.1 b2 b3 b4 a ha int (A (idx.take ll.length)) (B (idx.take lt.length))
    (S (idx.take lr.length))
  rw [← evalV_potential (coef := C (idx.take lc.length)) (lat_rad hla) ha.ne' hr.ne' hf, mul_comm, vSum_series]

/-- **C63**, `sphargrd` of the arrays returned by `legendre`, `relradpow` and `loncossin`:
the vectors are the gradients of the expansions at the given positions (north and radial
components at all latitudes, east component away from the poles by 1e-10 in the cosine)
and, from degree 1, those of the evaluation of a single point by `sheval`. -/
theorem C63_gradient_partial (fl : Nat → Int) (hf : SqrtDegree fl) (j1 j2 j3 j4 j5 : Nat → List ℝ)
    (hj1 : ∀ n, (j1 n).length = n) (hj2 : ∀ n, (j2 n).length = n) (hj3 : ∀ n, (j3 n).length = n)
    (hj4 : ∀ n, (j4 n).length = n) (hj5 : ∀ n, (j5 n).length = n)
    (lat lon rad coef : NdArray ℝ) (ll lt lr lc lead : List Nat) (n0 : Nat)
    (A B S : List Nat → ℝ) (C : List Nat → List (ℝ × ℝ)) (hA : ScalarsOf lat ll A) (hB : ScalarsOf lon lt B)
    (hS : ScalarsOf rad lr S) (hC : PairsOf coef lc n0 C) (hm : MatchAll [ll, lt, lr, lc] lead)
    (h0 : 1 ≤ n0 ∧ n0 < 2 ^ 45) (dl dr dn : Nat) (hl : 1 ≤ dl ∧ ncoef dl < 2 ^ 45) (a : ℝ) (ha : 0 < a)
    (int fast : Bool) (degree : Int) (N : Nat) (hd : UsedDegreeOf (AllowedDegree n0 dl dr dn) degree N) :
    ∃ lp ldp rrp lcs data, legendreArr libm nearPole (10 ^ 280) j1 j2 lat dl = .ok (lp, ldp) ∧
      relradpowArr j3 rad dr a int = .ok rrp ∧ loncossinArr libm j4 lon dn fast = .ok lcs ∧
      sphargrd libm nearPole fl j5 lat coef lp ldp rrp lcs int degree = .ok (lead, data) ∧
      ∀ idx r φ lam c, Index lead idx → r = S (idx.take lr.length) →
        φ = A (idx.take ll.length) * (Real.pi / 180) → lam = B (idx.take lt.length) * (Real.pi / 180) →
        c = C (idx.take lc.length) → |A (idx.take ll.length)| ≤ 90 → 0 < r →
        ∃ g : Grad ℝ, (∀ k : Fin 3, data[rank (lead ++ [3]) (idx ++ [k.val])]? = some (gradComp g k)) ∧
          HasDerivAt (fun x => potential int a N (coefG c) (coefH c) r x lam) (r * g.el) φ ∧
          (1 / 10 ^ 10 ≤ |Real.cos φ| → HasDerivAt (fun x => potential int a N (coefG c) (coefH c) r φ x)
            (r * Real.cos φ * g.az) lam) ∧
          HasDerivAt (fun x => potential int a N (coefG c) (coefH c) x φ lam) g.rd r ∧
          (1 ≤ N → ∀ b, MemOk b N → pointR a N 2 int b φ lam r c = some (none, some g)) := by
  obtain ⟨lp, ldp, e1, hP, hD⟩ := legendre_rows j1 j2 hj1 hj2 lat ll A hA dl hl.1
  obtain ⟨rrp, e2, hR⟩ := relradpow_rows j3 hj3 rad lr S hS dr a ha int
  obtain ⟨lcs, e3, hL⟩ := loncossin_rows j4 hj4 lon lt B hB dn fast
  rw [ncoef_tri] at hl
  have hm' : MatchAll [ll, lc, ll, ll, lr, lt] lead := by
    refine ⟨fun l h => hm.1 l ?_, ?_⟩
    · simp only [List.mem_cons, List.not_mem_nil, or_false] at h ⊢
      tauto
    · have := hm.2
      simp only [List.mem_cons, List.not_mem_nil, or_false] at this ⊢
      tauto
  have hd' := used_congr (B := Allowed5 n0 (tri (dl + 1)) (tri (dl + 1)) (dr + 1) (dn + 1)) (fun d => by
    unfold AllowedDegree Allowed5
    rw [tri_le_iff]
    omega) hd
  obtain ⟨data, e4, -, h4⟩ := C49_sphargrd fl hf j5 hj5 lat coef lp ldp rrp lcs ll lc ll ll lr lt lead n0
    (tri (dl + 1)) (tri (dl + 1)) (dr + 1) (dn + 1) A C _ _ _ _ hA hC hP hD hR hL hm' h0 ⟨tri_pos dl, hl.2⟩
    ⟨tri_pos dl, hl.2⟩ (by omega) (by omega) int degree N hd'
  refine ⟨lp, ldp, rrp, lcs, data, e1, e2, e3, e4, fun idx r φ lam c hi er ep el ec hla hr => ?_⟩
  obtain ⟨b1, b2, b3, b4⟩ : AllowedDegree n0 dl dr dn N := used_allowed hd (fun d d' h h' =>
    ⟨(ncoef_mono h).trans h'.1, h.trans h'.2.1, h.trans h'.2.2.1, h.trans h'.2.2.2⟩)
  obtain ⟨g, hg, hdat⟩ := h4 idx hi
  have p1 := hm.1 lc (by simp)
  have hclen := hC.len _ (index_take p1 hi)
  rw [← ec] at hg hclen
  have hfil := rows_filled hl.1 b2 b3 b4 a ha int (A (idx.take ll.length)) (B (idx.take lt.length))
    (S (idx.take lr.length))
  rw [← ep, ← el, ← er] at hfil
  have t := legRow_spec dl hl.1 (A (idx.take ll.length))
  have hN : ncoef N ≤ tri (dl + 1) := tri_le_iff.mpr b2
  have ok := rows_ok (N := N) (C := c) (L := lonRow dn (B (idx.take lt.length)))
    (P := (legRow dl (A (idx.take ll.length))).lp) (D := (legRow dl (A (idx.take ll.length))).ldp)
    (R := radRow dr a int (S (idx.take lr.length)))
    (by rw [hclen]; exact b1) (by rw [t.1.1]; exact hN) (by rw [t.1.2.1]; exact hN)
    (by simp [radRow]; omega) (by simp [lonRow]; omega)
  unfold gradR at hg
  rw [evalDv_spec ok, ← ep, ← er] at hg
  rw [← er] at ok
  obtain ⟨d1, d2, d3⟩ := filled_gradient (coef := c) ha hr (by rw [ep]; exact lat_rad hla) hfil
  refine ⟨g, hdat, ?_, ?_, ?_, ?_⟩
  · have : g.el = _ := fixPole_el hg
    rw [this]
    exact d1
  · intro hp
    have hcos : Real.cos φ ≠ 0 := by
      intro h; rw [h] at hp; norm_num at hp
    rw [fixPole_far hp] at hg
    rw [← Option.some.inj hg]
    show HasDerivAt _ (r * Real.cos φ * (azSum _ _ _ _ _ / Real.cos φ)) lam
    rw [mul_assoc, mul_div_cancel₀ _ hcos]
    exact d2
  · have : g.rd = _ := fixPole_rd hg
    rw [this]
    exact d3
  · intro h1 b hb
    obtain ⟨leg, lcs', rrp', L', P', D', R', o', f', e'⟩ := pointR_fill (int := int) (a := a) (clat := φ)
      (clon := lam) (crad := r) (coef := c) h1 hb (by have := ncoef_two N; unfold CoefOk; rw [hclen]; nlinarith) 2
    rw [e' 2]
    have : evalDv Real.sin Real.cos Real.sqrt nearPole N φ c lcs' leg.lp leg.ldp rrp' int = some g := by
      rw [← hg, evalDv_spec o']
      exact fixPole_filled h1 o' ok f' hfil
    show (do let g ← evalDv Real.sin Real.cos Real.sqrt nearPole N φ c lcs' leg.lp leg.ldp rrp' int
             return (none, some g)) = _
    rw [this]
    rfl

/-- Two latitudes (every second item of the memory), one longitude and radius, the
coefficients of degree 1 and series of degrees 2, 3 and 5. -/
example : ScalarsOf ⟨cells [10, 0, -80], ⟨0, [2], [2]⟩⟩ [2] (fun idx => if idx = [0] then 10 else -80) ∧
    ScalarsOf ⟨cells [7000], ⟨0, [], []⟩⟩ [] (fun _ => 7000) ∧
    PairsOf ⟨cells [1, 0, 2, 0, 3, 4], ⟨0, [3, 2], [2, 1]⟩⟩ [] 3 (fun _ => [(1, 0), (2, 0), (3, 4)]) ∧
    MatchAll [[2], [], [], []] [2] ∧ UsedDegreeOf (AllowedDegree 3 2 3 5) (-1) 1 ∧
    UsedDegreeOf (Allowed 3 6 4 6) 7 1 ∧ UsedDegreeOf (Allowed5 3 6 6 4 6) 0 0 := by
  have hn : ∀ d, ncoef d ≤ 3 ↔ d ≤ 1 := fun d => tri_le_iff (D := 1)
  have h6 : ∀ d, ncoef d ≤ 6 ↔ d ≤ 2 := fun d => tri_le_iff (D := 2)
  refine ⟨⟨rfl, rfl, fun idx h => ?_⟩, ⟨rfl, rfl, fun idx h => ?_⟩, ⟨rfl, ⟨[], rfl, rfl⟩, fun _ _ => rfl, ?_⟩,
    ⟨fun l h => ?_, by simp⟩, ⟨1, ?_, fun d h => (hn d).mp h.1, by simp⟩, ⟨1, ?_, fun d h => (hn d).mp h.1, by simp⟩,
    ⟨1, ?_, fun d h => (hn d).mp h.1, by simp⟩⟩
  · cases h with
    | cons h1 h2 =>
      cases h2
      rename_i a
      have : a = 0 ∨ a = 1 := by omega
      rcases this with rfl | rfl <;> simp [elem, cells]
  · cases h
    simp [elem, cells]
  · intro idx h k p hp
    cases h
    rcases k with _ | _ | _ | k <;> simp at hp <;> subst hp <;> simp [elem, cells]
  · simp only [List.mem_cons, List.not_mem_nil, or_false] at h
    rcases h with rfl | rfl | rfl | rfl
    · exact List.prefix_rfl
    · exact List.nil_prefix
    · exact List.nil_prefix
    · exact List.nil_prefix
  · unfold AllowedDegree
    rw [hn]
    omega
  · unfold Allowed
    rw [hn, h6]
    omega
  · unfold Allowed5
    rw [hn, h6]
    omega

end Verif.Props
