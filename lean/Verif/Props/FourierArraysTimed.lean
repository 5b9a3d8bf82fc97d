/-
Property C67: `sheval2dfs` on arrays.
-/
import Verif.Props.TimedArrays
import Verif.Props.Series

set_option linter.unusedSectionVars false

namespace Verif.Props

open Verif.Geo Verif.Spec Verif.ShPoint Verif.FullEval Verif.Arr Verif.Buf Verif.Legendre Verif.Coeffs
  Verif.ShEval Verif.Fourier

/-- A set of Fourier coefficients as it is given: one matrix per coefficient; the second minimal
degree is not the only one of the largest absolute value (see `C29_overflow`). -/
structure GoodFourier (r : RawFourier ℝ) : Prop where
  len : r.ab.length = r.cm.length
  size : ∀ ab ∈ r.ab, ab.length = r.size1 * r.size2
  index : ∀ e ∈ r.cm, |e.2| ≤ e.1
  nodup : r.cm.Nodup
  degrees : r.min2.natAbs ≤ 1 ∨ r.min2.natAbs ≤ r.min1.natAbs ∨
    r.min2.natAbs ≤ (r.min1 + r.size1 - 1).natAbs ∨ r.min2.natAbs ≤ (r.min2 + r.size2 - 1).natAbs

/-- Fourier sum of a matrix at a pair of times. -/
noncomputable def fourierValue (r : RawFourier ℝ) (ab : List (ℝ × ℝ)) (t1 t2 : ℝ) : ℝ :=
  fourierSum (fun i j => (ab.getD (i * r.size2 + j) (0, 0)).1) (fun i j => (ab.getD (i * r.size2 + j) (0, 0)).2)
    r.size1 r.size2 r.min1 r.min2 (r.scale1 * t1) (r.scale2 * t2)

/-- The coefficients at a pair of times. -/
def fourierEntries (r : RawFourier ℝ) (t1 t2 : ℝ) : List ((Int × Int) × (ℝ → Prop)) :=
  (r.cm.zip r.ab).map (fun e => (e.1, fun v => v = fourierValue r e.2 t1 t2))

theorem f2dEval_value (r : RawFourier ℝ) (f : F2D ℝ) (t1 t2 : ℝ)
    (hf : F2DOk f r.min1 r.min2 r.size1 r.size2 r.scale1 r.scale2)
    (hcs : f.cs12 = (List.range (r.size1 * r.size2)).map
      (fun k => cis (angle r.min1 r.min2 r.size2 r.scale1 r.scale2 t1 t2 k)))
    (ab : List (ℝ × ℝ)) (h : ab.length = r.size1 * r.size2) : f2dEval f ab = some (fourierValue r ab t1 t2) := by
  unfold f2dEval
  have e1 : (f.max1 - f.min1 + 1).toNat = r.size1 := by rw [hf.max1, hf.min1]; omega
  have e2 : (f.max2 - f.min2 + 1).toNat = r.size2 := by rw [hf.max2, hf.min2]; omega
  rw [e1, e2, hcs, fsEval2d_spec ab r.size1 r.size2 _ (fun k => ab.getD k (0, 0)) (by
      intro k hk
      exact ⟨by omega, by simp [show k < ab.length by omega]⟩), sum_range_mul]
  congr 1
  unfold fourierValue fourierSum
  refine Finset.sum_congr rfl (fun i _ => Finset.sum_congr rfl (fun j hj => ?_))
  have hj' := Finset.mem_range.mp hj
  have e : angle r.min1 r.min2 r.size2 r.scale1 r.scale2 t1 t2 (i * r.size2 + j) =
      (r.min1 + i) * (r.scale1 * t1) + (r.min2 + j) * (r.scale2 * t2) := by
    unfold angle
    rw [div_mul_add i hj', mod_mul_add i hj']
    push_cast; ring
  rw [e]
  rfl

/-- The coefficients kept between the times. -/
structure FourierInv (r : RawFourier ℝ) (N : Nat) (c : FourierCoef ℝ) : Prop where
  len : c.coef.length = (coeffSize N).toNat
  zero : ∀ q k, (∀ e ∈ r.cm, key e ≠ (q, k)) → cell c.coef q k = 0
  f2d : F2DOk c.f2d r.min1 r.min2 r.size1 r.size2 r.scale1 r.scale2
  last : ∀ t1 t2, c.last1 = some t1 → c.last2 = some t2 → TableOf N (fourierEntries r t1 t2) c.coef

theorem fourierEntries_fst (r : RawFourier ℝ) (h : r.ab.length = r.cm.length) (t1 t2 : ℝ) :
    (fourierEntries r t1 t2).map Prod.fst = r.cm := by
  unfold fourierEntries
  rw [List.map_map]
  exact List.map_fst_zip (le_of_eq h.symm)

theorem zero_iff (r : RawFourier ℝ) (h : r.ab.length = r.cm.length) (t1 t2 : ℝ) (q : Nat) (k : Bool) :
    (∀ e ∈ fourierEntries r t1 t2, ¬ (q = coefRow e.1.1 e.1.2 ∧ k = decide (e.1.2 < 0))) ↔
      ∀ e ∈ r.cm, key e ≠ (q, k) := by
  constructor
  · intro hh e he hk
    rw [← fourierEntries_fst r h t1 t2] at he
    obtain ⟨e', he', rfl⟩ := List.mem_map.mp he
    rw [key_coefRow] at hk
    simp only [Prod.mk.injEq] at hk
    exact hh e' he' ⟨hk.1.symm, hk.2.symm⟩
  · intro hh e he hk
    refine hh e.1 ?_ (by rw [key_coefRow, hk.1, hk.2])
    rw [← fourierEntries_fst r h t1 t2]
    exact List.mem_map.mpr ⟨e, he, rfl⟩

/-- One table for a pair of times. -/
theorem fourier_unique (r : RawFourier ℝ) (h : r.ab.length = r.cm.length) (N : Nat) (t1 t2 : ℝ)
    (a b : List (ℝ × ℝ)) (ha : TableOf N (fourierEntries r t1 t2) a) (hb : TableOf N (fourierEntries r t1 t2) b) :
    a = b := by
  apply tab_ext a b (by rw [ha.len, hb.len])
  intro q k
  by_cases hh : ∀ e ∈ fourierEntries r t1 t2, ¬ (q = coefRow e.1.1 e.1.2 ∧ k = decide (e.1.2 < 0))
  · rw [ha.zero q k hh, hb.zero q k hh]
  · push Not at hh
    obtain ⟨e, he, rfl, rfl⟩ := hh
    have h1 := ha.vals e he
    have h2 := hb.vals e he
    obtain ⟨e', he', rfl⟩ := List.mem_map.mp he
    simp only at h1 h2 ⊢
    rw [h1, h2]

theorem fourierUpd_ok (r : RawFourier ℝ) (hr : GoodFourier r) (N : Nat) (hN : ∀ e ∈ r.cm, e.1 ≤ N)
    (c : FourierCoef ℝ) (h : FourierInv r N c) (t1 t2 : ℝ) (rows : List (ℝ × ℝ))
    (ht : TableOf N (fourierEntries r t1 t2) rows) :
    ∃ c', FourierInv r N c' ∧ fourierUpd Real.cos Real.sin r.ab r.cm c [t1, t2] = some (c', rows) := by
  by_cases he : some t1 ≠ c.last1 ∨ some t2 ≠ c.last2
  · obtain ⟨f, hf1, hf2, hf3⟩ := f2dCosSin_ok c.f2d r.min1 r.min2 r.size1 r.size2 r.scale1 r.scale2 t1 t2 h.f2d
      (by have := hr.degrees; simp only [maxAbsDegree]; omega)
    obtain ⟨tab, w1, w2, w3, w4⟩ := write_spec (N : Int) r.cm r.ab hr.len (fun e he => ⟨hr.index e he, hN e he⟩)
      hr.nodup (f2dEval f) (fun ab => fourierValue r ab t1 t2)
      (fun ab hab => f2dEval_value r f t1 t2 hf2 hf3 ab (hr.size ab hab)) c.coef h.len
    have htab : TableOf N (fourierEntries r t1 t2) tab := by
      refine ⟨by rw [w2, h.len, ncoef_size], ?_, ?_⟩
      · intro e he
        obtain ⟨e', he', rfl⟩ := List.mem_map.mp he
        have := w3 e' he'
        rw [key_coefRow] at this
        exact this
      · intro q k hq
        rw [zero_iff r hr.len] at hq
        rw [w4 q k hq, h.zero q k hq]
    obtain rfl := fourier_unique r hr.len N t1 t2 _ _ htab ht
    refine ⟨⟨tab, some t1, some t2, f⟩, ⟨by rw [w2]; exact h.len, ?_, hf2, ?_⟩, ?_⟩
    · intro q k hq
      rw [w4 q k hq, h.zero q k hq]
    · intro s1 s2 e1 e2
      cases e1
      cases e2
      exact htab
    · simp only [fourierUpd, if_pos he, fourierTable, hf1, Option.bind_eq_bind, Option.bind_some]
      simp only [Option.bind_eq_bind] at w1
      simp only [w1, Option.bind_some]
      rfl
  · push Not at he
    have hk := h.last t1 t2 he.1.symm he.2.symm
    have hu := fourier_unique r hr.len N t1 t2 _ _ hk ht
    refine ⟨c, h, ?_⟩
    simp [fourierUpd, he.1, he.2, hu]

/-- The checks and the shapes of `sheval2dfs` for arrays which fit. -/
theorem fourier_shapes {t1 t2 x : NdArray ℝ} {l1 l2 lt lx lead : List Nat} {T1 T2 : List Nat → ℝ}
    {X : List Nat → V3 ℝ} (ht1 : ItemsOf t1 l1 T1) (ht2 : ItemsOf t2 l2 T2) (hx : VectorsOf x lx X)
    (hmt : Match l1 l2 lt) (hm : Match lx lt lead) :
    minNdim x.arr 1 = some () ∧ lastIs3 x.arr = some () ∧
    samePrefix t1.arr.dim t2.arr.dim (min t1.arr.dim.length t2.arr.dim.length) = some () ∧
    samePrefix t1.arr.dim x.arr.dim (min t1.arr.dim.length (x.arr.dim.length - 1)) = some () ∧
    samePrefix t2.arr.dim x.arr.dim (min t2.arr.dim.length (x.arr.dim.length - 1)) = some () ∧
    t1.arr.dim ++ t2.arr.dim.drop t1.arr.dim.length = lt ∧
    (if t1.arr.dim.length = max (max (max 0 t1.arr.dim.length) t2.arr.dim.length) (x.arr.dim.length - 1)
      then t1.arr.dim else if t2.arr.dim.length = max (max (max 0 t1.arr.dim.length) t2.arr.dim.length)
        (x.arr.dim.length - 1) then t2.arr.dim else x.arr.dim).take
      (max (max (max 0 t1.arr.dim.length) t2.arr.dim.length) (x.arr.dim.length - 1)) = lead := by
  obtain ⟨hpx, hpt, hpl⟩ := hm
  obtain ⟨hp1, hp2, hpt'⟩ := hmt
  have hmx : minNdim x.arr 1 = some () := by simp [minNdim, hx.dim]
  have hl3 : lastIs3 x.arr = some () := by simp [lastIs3, hx.dim]
  have hlx : lx.length = x.arr.dim.length - 1 := by rw [hx.dim]; simp
  have hs12 : samePrefix t1.arr.dim t2.arr.dim (min t1.arr.dim.length t2.arr.dim.length) = some () := by
    have := samePrefix_ok (c := []) (d := []) hp1 hp2
    rwa [List.append_nil, List.append_nil, ← ht1.dim, ← ht2.dim] at this
  have hs1x : samePrefix t1.arr.dim x.arr.dim (min t1.arr.dim.length (x.arr.dim.length - 1)) = some () := by
    have := samePrefix_ok (c := []) (d := [3]) (hp1.trans hpt) hpx
    rwa [List.append_nil, ← ht1.dim, ← hx.dim, hlx] at this
  have hs2x : samePrefix t2.arr.dim x.arr.dim (min t2.arr.dim.length (x.arr.dim.length - 1)) = some () := by
    have := samePrefix_ok (c := []) (d := [3]) (hp2.trans hpt) hpx
    rwa [List.append_nil, ← ht2.dim, ← hx.dim, hlx] at this
  have hdrv : t1.arr.dim ++ t2.arr.dim.drop t1.arr.dim.length = lt := by
    rw [ht1.dim, ht2.dim]
    rcases hpt' with h | h
    · subst h
      rw [List.drop_eq_nil_of_le hp2.length_le, List.append_nil]
    · subst h
      obtain ⟨u, rfl⟩ := hp1
      rw [List.drop_left]
  have hlead : (if t1.arr.dim.length = max (max (max 0 t1.arr.dim.length) t2.arr.dim.length) (x.arr.dim.length - 1)
      then t1.arr.dim else if t2.arr.dim.length = max (max (max 0 t1.arr.dim.length) t2.arr.dim.length)
        (x.arr.dim.length - 1) then t2.arr.dim else x.arr.dim).take
      (max (max (max 0 t1.arr.dim.length) t2.arr.dim.length) (x.arr.dim.length - 1)) = lead := by
    have hmax : max (max (max 0 t1.arr.dim.length) t2.arr.dim.length) (x.arr.dim.length - 1) = lead.length := by
      have a1 := (hp1.trans hpt).length_le
      have a2 := (hp2.trans hpt).length_le
      have a3 := hpx.length_le
      rw [← hlx, ht1.dim, ht2.dim]
      have : l1.length = lead.length ∨ l2.length = lead.length ∨ lx.length = lead.length := by
        rcases hpl with h | h
        · exact .inr (.inr (by rw [h]))
        · rcases hpt' with h' | h'
          · exact .inl (by rw [h', h])
          · exact .inr (.inl (by rw [h', h]))
      omega
    rw [hmax]
    split
    · rename_i h
      rw [ht1.dim] at h ⊢
      rw [(hp1.trans hpt).eq_of_length h, List.take_length]
    split
    · rename_i h
      rw [ht2.dim] at h ⊢
      rw [(hp2.trans hpt).eq_of_length h, List.take_length]
    · rename_i h1 h2
      have : lx.length = lead.length := by rw [← hlx] at hmax; omega
      rw [hx.dim, ← hpx.eq_of_length this, List.take_left]
  exact ⟨hmx, hl3, hs12, hs1x, hs2x, hdrv, hlead⟩

/-- **C67**: `sheval2dfs` is `sheval` with an array of the coefficients at the pairs of times (any
evaluation item by item, errors included).  `lt` are the longer dimensions of the two arrays of times. -/
theorem C67_is_sheval_partial (fl : Nat → Int) (hf : SqrtDegree fl) {St : Type} (evalP : Config ℝ → Nat → Eval St ℝ)
    (start : Nat → St) (junk : Nat → List ℝ) (junk2 : Nat → ℝ × ℝ) (t1 t2 x coef : NdArray ℝ)
    (l1 l2 lt lx lead : List Nat) (N : Nat) (T1 T2 : List Nat → ℝ) (X : List Nat → V3 ℝ)
    (C : List Nat → List (ℝ × ℝ)) (raw : RawFourier ℝ) (hr : GoodFourier raw) (hN : MaxDegree raw.cm N)
    (hN2 : ncoef N < 2 ^ 45) (ht1 : ItemsOf t1 l1 T1) (ht2 : ItemsOf t2 l2 T2) (hx : VectorsOf x lx X)
    (hmt : Match l1 l2 lt) (hm : Match lx lt lead) (hc : PairsOf coef lt (ncoef N) C)
    (hC : ∀ idx, Index lt idx →
      TableOf N (fourierEntries raw (T1 (idx.take l1.length)) (T2 (idx.take l2.length))) (C idx))
    (ctIn ctOut mode : Int) (int : Bool) (sp : ℝ) (sg : Scale ℝ) :
    sheval2dfsArr Real.cos Real.sin evalP start junk junk2 t1 t2 x raw ctIn ctOut mode int sp sg =
      sheval fl evalP start junk x coef ctIn ctOut mode int (-1) sp sg := by
  rw [sheval_plain fl hf evalP start junk x coef lx lt lead N X C hx hc hm hN2]
  obtain ⟨hmx, hl3, hs12, hs1x, hs2x, hdrv, hlead⟩ := fourier_shapes ht1 ht2 hx hmt hm
  obtain ⟨hpx, hpt, hpl⟩ := hm
  obtain ⟨hp1, hp2, hpt'⟩ := hmt
  have hparse : raw.parse junk2 = some ⟨raw.ab, raw.cm, (N : Int),
      f2dInit junk2 raw.min1 raw.size1 raw.min2 raw.size2 raw.scale1 raw.scale2⟩ := by
    obtain ⟨h1, h2, h3⟩ := cm_foldl_max raw.cm 0
    have : raw.cm.foldl (fun d e => max d e.1) 0 = N := by
      apply le_antisymm
      · rcases h3 with h3 | ⟨e, he, h3⟩
        · omega
        · rw [← h3]; exact hN.1 e he
      · rcases hN.2 with h | ⟨e, he, h⟩
        · omega
        · rw [← h]; exact h2 e he
    unfold RawFourier.parse
    rw [if_neg (by simp [hr.len]), this]
  obtain ⟨rest, hrest⟩ := hpt
  have hrun : ∀ (ev : Eval St ℝ) (m : Nat) (s0 : St), runTimed (fourierUpd Real.cos Real.sin raw.ab raw.cm) ev junk m
      lt lead [t1, t2] x ⟨zeros ℝ (N : Int), none, none,
        f2dInit junk2 raw.min1 raw.size1 raw.min2 raw.size2 raw.scale1 raw.scale2⟩ s0 =
      plain ev junk m lead x coef s0 := by
    intro ev m s0
    rw [← hrest]
    refine runTimed_eq (ts := [t1, t2]) (T := fun a => [T1 (a.take l1.length), T2 (a.take l2.length)]) (R := C)
      (Inv := FourierInv raw N) ev ?_ ?_ ?_ ?_ ?_ ?_ junk m _ ?_ s0
    · exact .cons (items_fits0 ht1 hp1) (.cons (items_fits0 ht2 hp2) .nil)
    · intro a ha
      have g1 := items_read ht1 hp1 (mem_indices.mp ha)
      have g2 := items_read ht2 hp2 (mem_indices.mp ha)
      simp [g1, g2]
    · intro a ha c hinv
      exact fourierUpd_ok raw hr N hN.1 c hinv _ _ (C a) (hC a (mem_indices.mp ha))
    · exact ⟨hx.ndim, .inl ⟨lx, [3], hx.dim, rfl, by rw [hrest]; exact hpx⟩⟩
    · obtain ⟨s, hs, hsl⟩ := hc.stride
      exact ⟨by rw [hs, hc.dim]; simp [hsl], .inl ⟨lt, [ncoef N, 2], hc.dim, rfl, List.prefix_append _ _⟩⟩
    · intro idx hi
      exact read_coef hc (List.prefix_append _ _) (mem_indices.mp hi)
    · refine ⟨zeros_length _, fun q k _ => cell_zeros _ q k, f2dInit_ok _ _ _ _ _ _ _, ?_⟩
      intro s1 s2 h
      cases h
  unfold sheval2dfsArr
  cases hi : checkCT ctIn with
  | none => rfl
  | some i =>
  cases ho : checkCT ctOut with
  | none => rfl
  | some o =>
  cases hm : checkMode mode with
  | none => rfl
  | some m =>
  simp only [hparse, hmx, hl3, hs12, hs1x, hs2x, hlead, hdrv, hrun, Option.getD_some, 
    if_neg (show ¬ (N : Int) < 0 by omega), Int.toNat_natCast, orValueError, bind, Except.bind]
  cases hg : sg.get with
  | none => rfl
  | some g =>
    simp only [hrun]
    generalize plain (evalP (config int N i o sp g) m) junk m lead x coef (start N) = p
    cases p <;> rfl

/-- **C67**: at every pair of times there is one table of the coefficients. -/
theorem C67_table_exists (raw : RawFourier ℝ) (hr : GoodFourier raw) (N : Nat) (hN : MaxDegree raw.cm N) (t1 t2 : ℝ) :
    ∃! rows, TableOf N (fourierEntries raw t1 t2) rows := by
  obtain ⟨rows, h⟩ := exists_tableOf N (fourierEntries raw t1 t2)
    (by rw [fourierEntries_fst raw hr.len]; exact hr.nodup)
    (by intro e he
        have : e.1 ∈ raw.cm := by
          rw [← fourierEntries_fst raw hr.len t1 t2]
          exact List.mem_map.mpr ⟨e, he, rfl⟩
        exact ⟨hr.index _ this, hN.1 _ this⟩)
    (by intro e he
        obtain ⟨e', he', rfl⟩ := List.mem_map.mp he
        exact ⟨_, rfl⟩)
  exact ⟨rows, h, fun rows' h' => fourier_unique raw hr.len N t1 t2 _ _ h' h⟩

/-- **C67**: `sheval2dfs` on arrays (partial as C29 and C49: second minimal degrees, from degree 1, coordinates of
a point next to each other in the memory).  With matching leading dimensions of the two arrays of
times and the points the call succeeds, the outputs have the longest leading dimensions, and the items
at each index are the outputs of the single evaluation of the point at this index with the coefficients
given by the Fourier sums at the times at this index. -/
theorem C67_sheval2dfs_partial (alloc : Nat → Mem ℝ) (ha : ∀ N, MemOk (alloc N) N) (junk : Nat → List ℝ)
    (hj : ∀ n, (junk n).length = n) (junk2 : Nat → ℝ × ℝ) (t1 t2 x : NdArray ℝ) (l1 l2 lt lx lead : List Nat)
    (N : Nat) (T1 T2 : List Nat → ℝ) (X : List Nat → V3 ℝ) (raw : RawFourier ℝ) (hr : GoodFourier raw)
    (hN : MaxDegree raw.cm N) (hN1 : 1 ≤ N) (hN2 : ncoef N < 2 ^ 45) (ht1 : ItemsOf t1 l1 T1) (ht2 : ItemsOf t2 l2 T2)
    (hx : VectorsOf x lx X) (h1 : x.arr.stride.getLast? = some 1) (hmt : Match l1 l2 lt) (hm : Match lx lt lead)
    (i o : CT) (mode : Nat) (hmode : mode = 1 ∨ mode = 2 ∨ mode = 3) (int : Bool) (sp : ℝ) (sg : Scale ℝ)
    (g : V3 ℝ) (hg : ScaleOf sg g) :
    ∃ r, sheval2dfsArr Real.cos Real.sin (fun c m s v rows => modelEvalR c m s v rows) (fun N => init (alloc N))
        junk junk2 t1 t2 x raw (code i) (code o) mode int sp sg = .ok r ∧
      r.shape = lead ∧ (∀ p, r.pot = some p → p.length = lead.prod) ∧
      (∀ p, r.grd = some p → p.length = (lead ++ [3]).prod) ∧
      (r.pot.isSome = true ↔ mode = 1 ∨ mode = 3) ∧ (r.grd.isSome = true ↔ mode = 2 ∨ mode = 3) ∧
      ∀ idx, Index lead idx → ∀ rows,
        TableOf N (fourierEntries raw (T1 (idx.take l1.length)) (T2 (idx.take l2.length))) rows →
        ∃ u, shevalR int N i o mode sp g (alloc N) [(X (idx.take lx.length), rows)] = some [u] ∧
        r.pot.bind (fun p => p[rank lead idx]?) = u.1 ∧
        ∀ k : Fin 3, r.grd.bind (fun p => p[rank (lead ++ [3]) (idx ++ [k.val])]?) =
          u.2.map (fun v => comp v k) := by
  classical
  obtain ⟨fl, hf⟩ : ∃ fl, SqrtDegree fl := ⟨fun s => if s = 0 then -1 else
      truncZ ((Real.sqrt (8 * s + 1) * (1 + 0) - 3) / 2 * (1 + 0)), rfl,
    fun s h _ => ⟨0, 0, by norm_num, by norm_num, by simp only [show s ≠ 0 by omega, if_false]⟩⟩
  choose tab htab huniq using C67_table_exists raw hr N hN
  set C : List Nat → List (ℝ × ℝ) := fun idx => tab (T1 (idx.take l1.length)) (T2 (idx.take l2.length)) with hCdef
  obtain ⟨coef, hc⟩ := exists_pairs lt (ncoef N) C (fun idx _ => (htab _ _).len)
  have hn : 1 ≤ ncoef N := by have := ncoef_two N; nlinarith
  have hD : IsLargest (ncoef N) N := by
    refine ⟨le_rfl, fun d h => ?_⟩
    by_contra hc
    have h1 := ncoef_mono (show N + 1 ≤ d by omega)
    have h3 := ncoef_two N
    have h4 := ncoef_two (N + 1)
    nlinarith
  obtain ⟨r, e1, e2, e3, e4, e5, e6, e7⟩ := C49_sheval_partial fl hf alloc ha junk hj x coef lx lt lead (ncoef N) X
    C hx h1 hc hm i o mode hmode int (-1) N hn hN2 hN1 ⟨N, hD, by simp⟩ sp sg g hg
  refine ⟨r, ?_, e2, e3, e4, e5, e6, ?_⟩
  · rw [← e1]
    exact C67_is_sheval_partial fl hf _ _ junk junk2 t1 t2 x coef l1 l2 lt lx lead N T1 T2 X C raw hr hN hN2 ht1 ht2 hx
      hmt hm hc (fun idx _ => htab _ _) _ _ _ int sp sg
  · intro idx hi rows hrows
    rw [huniq _ _ rows hrows]
    have := e7 idx hi
    have a1 : min l1.length lt.length = l1.length := min_eq_left hmt.1.length_le
    have a2 : min l2.length lt.length = l2.length := min_eq_left hmt.2.1.length_le
    simpa only [hCdef, List.take_take, a1, a2] using this

/-- **C67**: what `sheval2dfs` refuses with a `ValueError`: wrong coordinate types, modes, scales and
points, times and points with different dimensions.  For coefficients which do not fit see
`C67_bad_set_crashes`. -/
theorem C67_rejects {St : Type} (evalP : Config ℝ → Nat → Eval St ℝ) (start : Nat → St) (junk : Nat → List ℝ)
    (junk2 : Nat → ℝ × ℝ) (t1 t2 x : NdArray ℝ) (raw : RawFourier ℝ) (ctIn ctOut mode : Int) (int : Bool)
    (sp : ℝ) (sg : Scale ℝ)
    (h : BadCall x ctIn ctOut mode sg ∨ Differ t1.arr.dim t2.arr.dim ∨
      ∃ lx k, x.arr.dim = lx ++ [k] ∧ (Differ t1.arr.dim lx ∨ Differ t2.arr.dim lx)) :
    sheval2dfsArr Real.cos Real.sin evalP start junk junk2 t1 t2 x raw ctIn ctOut mode int sp sg =
      .error .valueError := by
  unfold sheval2dfsArr
  cases h1 : checkCT ctIn with
  | none => rfl
  | some i =>
  cases h2 : checkCT ctOut with
  | none => rfl
  | some o =>
  cases h3 : checkMode mode with
  | none => rfl
  | some m =>
  simp only [orValueError, bind, Except.bind]
  cases h7 : minNdim x.arr 1 with
  | none => rfl
  | some _ =>
  cases h4 : samePrefix t1.arr.dim t2.arr.dim (min t1.arr.dim.length t2.arr.dim.length) with
  | none => rfl
  | some _ =>
  cases h5 : samePrefix t1.arr.dim x.arr.dim (min t1.arr.dim.length (x.arr.dim.length - 1)) with
  | none => rfl
  | some _ =>
  cases h6 : samePrefix t2.arr.dim x.arr.dim (min t2.arr.dim.length (x.arr.dim.length - 1)) with
  | none => rfl
  | some _ =>
  cases h9 : lastIs3 x.arr with
  | none => rfl
  | some _ =>
  by_cases h8 : ((raw.parse junk2).getD zeroSet).degree < 0
  · simp only [if_pos h8]
  simp only [if_neg h8]
  cases h11 : sg.get with
  | none => rfl
  | some g =>
  exfalso
  rcases h with h | h | ⟨lx, k, hx, h⟩
  · have := badCall_none h
    simp [h1, h2, h3, h7, h9, h11] at this
  · have := samePrefix_differ (c := []) (d := []) h
    rw [List.append_nil, List.append_nil, h4] at this
    exact absurd this (by simp)
  · have hl : lx.length = x.arr.dim.length - 1 := by rw [hx]; simp
    rcases h with h | h
    · have := samePrefix_differ (c := []) (d := [k]) h
      rw [List.append_nil, ← hx, hl, h5] at this
      exact absurd this (by simp)
    · have := samePrefix_differ (c := []) (d := [k]) h
      rw [List.append_nil, ← hx, hl, h6] at this
      exact absurd this (by simp)

theorem indices_nil_iff (l : List Nat) : indices l = [] ↔ 0 ∈ l := by
  induction l with
  | nil => simp [indices]
  | cons n l ih =>
    rw [indices, List.flatMap_eq_nil_iff]
    simp only [List.mem_range, List.map_eq_nil_iff, List.mem_cons, ih]
    constructor
    · intro h
      by_cases hn : 0 < n
      · exact .inr (h 0 hn)
      · exact .inl (by omega)
    · rintro (h | h) i hi
      · omega
      · exact h

/-- **C67** does not hold for a set with a number of matrices other than the number of degrees and
orders: instead of raising a `ValueError` the call goes on with null pointers (a memory error) or, without
times, returns a result with the exception set (`SystemError`). -/
theorem C67_bad_set_crashes {St : Type} (evalP : Config ℝ → Nat → Eval St ℝ) (start : Nat → St)
    (junk : Nat → List ℝ) (junk2 : Nat → ℝ × ℝ) (t1 t2 x : NdArray ℝ) (l1 l2 lt lx lead : List Nat)
    (T1 T2 : List Nat → ℝ) (X : List Nat → V3 ℝ) (raw : RawFourier ℝ) (hr : raw.ab.length ≠ raw.cm.length)
    (ht1 : ItemsOf t1 l1 T1) (ht2 : ItemsOf t2 l2 T2) (hx : VectorsOf x lx X) (hmt : Match l1 l2 lt)
    (hm : Match lx lt lead) (i o : CT) (mode : Nat) (hmode : mode = 1 ∨ mode = 2 ∨ mode = 3) (int : Bool)
    (sp : ℝ) (sg : Scale ℝ) (g : V3 ℝ) (hg : ScaleOf sg g) :
    sheval2dfsArr Real.cos Real.sin evalP start junk junk2 t1 t2 x raw (code i) (code o) mode int sp sg =
      .error (if 0 ∈ lt then .systemError else .memory) := by
  obtain ⟨hmx, hl3, hs12, hs1x, hs2x, hdrv, hlead⟩ := fourier_shapes ht1 ht2 hx hmt hm
  obtain ⟨hpx, ⟨rest, hrest⟩, hpl⟩ := hm
  obtain ⟨hp1, hp2, hpt'⟩ := hmt
  have hg' := scaleOf_get hg
  have hci : checkCT (code i) = some i := by cases i <;> rfl
  have hco : checkCT (code o) = some o := by cases o <;> rfl
  have hcm : checkMode (mode : Int) = some mode := by rcases hmode with rfl | rfl | rfl <;> rfl
  have hparse : raw.parse junk2 = none := by unfold RawFourier.parse; rw [if_pos hr]
  have hcs : ∀ a b : ℝ, f2dCosSin Real.cos Real.sin (zeroSet : FourierSet ℝ).f2d a b = none := by
    intro a b
    have : fsCosSin Real.cos Real.sin ([] : List (ℝ × ℝ)) 0 0 = none := fsCosSin_oob [] 0 0 (by simp)
    simp only [zeroSet, f2dCosSin]
    simp [this]
  have hrun := runTimed_fails (ts := [t1, t2]) (dt := lt) (rest := rest)
    (T := fun a => [T1 (a.take l1.length), T2 (a.take l2.length)]) (x := x)
    (upd := fourierUpd Real.cos Real.sin (zeroSet : FourierSet ℝ).ab (zeroSet : FourierSet ℝ).cm)
    (evalP (config int 0 i o sp g) mode)
    (.cons (items_fits0 ht1 hp1) (.cons (items_fits0 ht2 hp2) .nil))
    (by intro a ha
        have g1 := items_read ht1 hp1 (mem_indices.mp ha)
        have g2 := items_read ht2 hp2 (mem_indices.mp ha)
        simp [g1, g2])
    ⟨hx.ndim, .inl ⟨lx, [3], hx.dim, rfl, by rw [hrest]; exact hpx⟩⟩ junk mode
    ⟨zeros ℝ (zeroSet : FourierSet ℝ).degree, none, none, (zeroSet : FourierSet ℝ).f2d⟩
    (by intro a ha
        simp [fourierUpd, fourierTable, hcs]) (start 0)
  rw [hrest] at hrun
  unfold sheval2dfsArr
  simp only [hci, hco, hcm, hparse, hmx, hl3, hs12, hs1x, hs2x, hlead, hdrv, hg', Option.getD_none,
    orValueError, bind, Except.bind]
  rw [if_neg (show ¬ (zeroSet : FourierSet ℝ).degree < 0 by simp [zeroSet])]
  simp only
  by_cases h0 : 0 ∈ lt
  · obtain ⟨r, hr'⟩ := hrun.2 ((indices_nil_iff lt).mpr h0)
    rw [if_pos h0]
    have : runTimed (fourierUpd Real.cos Real.sin (zeroSet : FourierSet ℝ).ab (zeroSet : FourierSet ℝ).cm)
        (evalP (config int (zeroSet : FourierSet ℝ).degree.toNat i o sp g) mode) junk mode lt lead [t1, t2] x
        ⟨zeros ℝ (zeroSet : FourierSet ℝ).degree, none, none, (zeroSet : FourierSet ℝ).f2d⟩
        (start (zeroSet : FourierSet ℝ).degree.toNat) = some r := hr'
    rw [this]
    rfl
  · have hr' := hrun.1 (fun h => h0 ((indices_nil_iff lt).mp h))
    rw [if_neg h0]
    have : runTimed (fourierUpd Real.cos Real.sin (zeroSet : FourierSet ℝ).ab (zeroSet : FourierSet ℝ).cm)
        (evalP (config int (zeroSet : FourierSet ℝ).degree.toNat i o sp g) mode) junk mode lt lead [t1, t2] x
        ⟨zeros ℝ (zeroSet : FourierSet ℝ).degree, none, none, (zeroSet : FourierSet ℝ).f2d⟩
        (start (zeroSet : FourierSet ℝ).degree.toNat) = none := hr'
    rw [this]
    rfl

/-- Two coefficients with matrices of one by three pairs, degrees -1, 0, 1 of the second time. -/
noncomputable def sampleFourier : RawFourier ℝ :=
  ⟨[[(1, 0), (2, 3), (0, 1)], [(0, 0), (5, 0), (1, 1)]], 1, 3, [(1, 0), (1, -1)], 0, -1, 1, 2⟩

example : GoodFourier sampleFourier ∧ MaxDegree sampleFourier.cm 1 :=
  ⟨⟨rfl, by simp [sampleFourier], by decide, by decide, by simp [sampleFourier]⟩,
    by decide, .inr ⟨(1, 0), by decide, rfl⟩⟩

example : fourierValue sampleFourier [(0, 0), (5, 0), (1, 1)] 0 0 = 6 := by
  norm_num [fourierValue, fourierSum, sampleFourier, Finset.sum_range_succ]

-- `Match` of the two arrays of times and of the points
example : Match [2] [2, 3] [2, 3] ∧ Match [2, 3, 4] [2, 3] [2, 3, 4] :=
  ⟨⟨by decide, by decide, .inr rfl⟩, by decide, by decide, .inl rfl⟩

end Verif.Props
