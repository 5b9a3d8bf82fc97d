/-
Property C66: `shevaltemp` on arrays.
-/
import Verif.Lemmas.TimedApi
import Verif.Spec.Timed
import Verif.Spec.Items
import Verif.Lemmas.ElemApi
import Verif.Props.Arrays
import Verif.Props.ShEval
import Verif.Props.Interp
import Verif.Props.Coefficients

set_option linter.unusedSectionVars false

namespace Verif.Props

open Verif.Geo Verif.Spec Verif.ShPoint Verif.FullEval Verif.Arr Verif.Buf Verif.Legendre Verif.Coeffs
  Verif.ShEval Verif.Interp

/-- `sheval` for arrays which fit. -/
theorem sheval_plain (fl : Nat → Int) (hf : SqrtDegree fl) {St : Type} (evalP : Config ℝ → Nat → Eval St ℝ)
    (start : Nat → St) (junk : Nat → List ℝ) (x coef : NdArray ℝ) (lx lc lead : List Nat) (N : Nat)
    (X : List Nat → V3 ℝ) (C : List Nat → List (ℝ × ℝ)) (hx : VectorsOf x lx X)
    (hc : PairsOf coef lc (ncoef N) C) (hm : Match lx lc lead) (hN : ncoef N < 2 ^ 45) (ctIn ctOut mode : Int)
    (int : Bool) (sp : ℝ) (sg : Scale ℝ) :
    sheval fl evalP start junk x coef ctIn ctOut mode int (-1) sp sg = (do
      let i ← orValueError (checkCT ctIn)
      let o ← orValueError (checkCT ctOut)
      let m ← orValueError (checkMode mode)
      let g ← orValueError sg.get
      orMemory (plain (evalP (config int N i o sp g) m) junk m lead x coef (start N))) := by
  obtain ⟨hpx, hpc, hpl⟩ := hm
  have hmx : minNdim x.arr 1 = some () := by simp [minNdim, hx.dim]
  have hmc : minNdim coef.arr 2 = some () := by simp [minNdim, hc.dim]
  have hrows : coef.arr.dim[coef.arr.dim.length - 2]? = some (ncoef N) := by
    rw [hc.dim, List.getElem?_append_right (by simp)]
    simp
  have hn : 1 ≤ ncoef N := by have := ncoef_two N; nlinarith
  obtain ⟨-, hdeg⟩ := C50_degree fl hf (ncoef N) hN (-1)
  obtain ⟨D, N', hD, hsel, hN', -⟩ := hdeg hn
  have hDN : D = N := by
    refine le_antisymm ?_ (hD.2 _ le_rfl)
    by_contra h
    have h1 := ncoef_mono (show N + 1 ≤ D by omega)
    have h2 := hD.1
    have h3 := ncoef_two N
    have h4 := ncoef_two (N + 1)
    nlinarith
  have hNN : N' = N := by rw [hDN] at hN'; simpa using hN'
  rw [hNN] at hsel
  obtain ⟨rr, hcd, hcn⟩ := commonShape_spec [(lx, [3]), (lc, [ncoef N, 2])] lead
    (by intro e he; simp only [List.mem_cons, List.not_mem_nil, or_false] at he
        rcases he with rfl | rfl
        · exact hpx
        · exact hpc)
    (by rcases hpl with h | h
        · exact ⟨(lx, [3]), by simp, h⟩
        · exact ⟨(lc, [ncoef N, 2]), by simp, h⟩)
  have hcs := checkShapes_spec _ lead rr hcd [(lx, [3]), (lc, [ncoef N, 2])] 0
    (by intro e he; simp only [List.mem_cons, List.not_mem_nil, or_false] at he
        rcases he with rfl | rfl
        · exact hpx
        · exact hpc)
    (by intro e he; simp only [List.mem_cons, List.not_mem_nil, or_false] at he
        rcases he with rfl | rfl <;> simp)
  simp only [List.map_cons, List.map_nil, List.length_cons, List.length_nil, Nat.zero_add, Nat.reduceAdd] at hcd hcn hcs
  rw [← hx.dim, ← hc.dim] at hcd hcn hcs
  have hlead : (commonShape [(x.arr.dim, 1), (coef.arr.dim, 2)]).dims.take
      (commonShape [(x.arr.dim, 1), (coef.arr.dim, 2)]).ndim.toNat = lead := by
    rw [hcd, hcn, Int.toNat_natCast, List.take_left]
  unfold sheval
  cases hi : checkCT ctIn with
  | none => rfl
  | some i =>
  cases ho : checkCT ctOut with
  | none => rfl
  | some o =>
  cases hm : checkMode mode with
  | none => rfl
  | some m =>
  cases hg : sg.get with
  | none => 
    simp only [hmx, hmc, hrows, hsel, hcs, orValueError, orMemory, if_true, bind, Except.bind]
  | some g =>
    simp only [hmx, hmc, hrows, hsel, hcs, hlead, orValueError, orMemory, if_true,
      Int.toNat_natCast, bind, Except.bind]
    unfold plain
    by_cases h1 : m = 1
    · simp only [if_pos h1, bind]
      cases shevalPot (evalP (config int N i o sp g) m) x.mem coef.mem lead [contiguous lead, x.arr, coef.arr]
        (start N, junk lead.prod) <;> rfl
    by_cases h2 : m = 2
    · simp only [if_neg h1, if_pos h2, bind]
      cases shevalGrd (evalP (config int N i o sp g) m) x.mem coef.mem (lead ++ [3])
        [contiguous (lead ++ [3]), x.arr, coef.arr] (start N, junk (lead ++ [3]).prod) <;> rfl
    · simp only [if_neg h1, if_neg h2, bind]
      cases shevalBoth (evalP (config int N i o sp g) m) x.mem coef.mem lead
        [contiguous lead, contiguous (lead ++ [3]), x.arr, coef.arr]
        (start N, junk lead.prod, junk (lead ++ [3]).prod) <;> rfl

/-- Series at sorted nodes. -/
theorem interp_spline (ts row : List ℝ) (hs : ts.Pairwise (· < ·)) (hl : row.length = ts.length)
    (hn : ts.length < 2 ^ 64) (a v : ℝ) (order : Int) (h : SplineAt ts row a order v) :
    interp (if order = 1 then .c0 else .c1) true (.fin a) (ts.map .fin) (row.map .fin) = .ok (.fin v) := by
  have mono : ∀ i j (hi : i < ts.length) (hj : j < ts.length), ts[i] < ts[j] → i < j := by
    intro i j hi hj h
    by_contra hc
    rcases Nat.lt_or_ge j i with h1 | h1
    · exact absurd (List.pairwise_iff_getElem.mp hs j i hj hi h1) (not_lt.mpr h.le)
    · obtain rfl : i = j := by omega
      exact absurd h (lt_irrefl _)
  have smono : ∀ i j (hi : i < ts.length) (hj : j < ts.length), i < j → ts[i] < ts[j] :=
    fun i j hi hj h => List.pairwise_iff_getElem.mp hs i j hi hj h
  cases h with
  | @constant j v h hv =>
    obtain ⟨hj, hlat, hbef⟩ := h
    have hv' : row[j]'(by omega) = v := by
      rw [List.getElem?_eq_getElem (by omega)] at hv
      exact Option.some.inj hv
    rw [if_pos rfl]
    have hs' : (ts.map X.fin).Pairwise (fun a b => X.le a b = true) := by
      rw [List.pairwise_map]
      exact hs.imp (fun h => by simp [X.le, h.le])
    rcases lt_or_ge a ts[j] with h1 | h1
    · have hj0 : j = 0 := by
        by_contra hne
        exact absurd (hbef h1 0 (by omega)) (not_le.mpr (smono 0 j (by omega) hj (by omega)))
      subst hj0
      rw [C03_before_first _ _ hs' (by simp [hl]) (by simpa using hn) true (.fin a) (by simpa using hj)
        (by simpa [X.le] using h1)]
      simp [hv']
    · rw [C03_value_of_last_node _ _ hs' (by simp [hl]) (by simpa using hn) true (.fin a) j (by simpa using hj)
        (by simpa [X.le] using h1) (by
          intro hk
          have hk' : j + 1 < ts.length := by simpa using hk
          have h2 := smono j (j + 1) hj hk' (by omega)
          rcases hlat h1 (j + 1) hk' with h3 | h3
          · exact absurd h3 (not_le.mpr h2)
          · simpa [X.le] using h3)]
      simp [hv']
  | @linear j k u w h hu hw =>
    obtain ⟨hj, hk, hlt, hadj, hbef, haft⟩ := h
    have hu' : row[j]'(by omega) = u := by
      rw [List.getElem?_eq_getElem (by omega)] at hu
      exact Option.some.inj hu
    have hw' : row[k]'(by omega) = w := by
      rw [List.getElem?_eq_getElem (by omega)] at hw
      exact Option.some.inj hw
    rw [if_neg (by norm_num)]
    have hjk : k = j + 1 := by
      have h1 := mono j k hj hk hlt
      by_contra hne
      have h2 := smono j (j + 1) hj (by omega) (by omega)
      have h3 := smono (j + 1) k (by omega) hk (by omega)
      rcases hadj (j + 1) (by omega) with h | h
      · exact absurd h (not_le.mpr h2)
      · exact absurd h (not_le.mpr h3)
    subst hjk
    subst hu' hw'
    rcases lt_or_ge a ts[j] with h1 | h1
    · have hj0 : j = 0 := by
        by_contra hne
        exact absurd (hbef h1 0 (by omega)) (not_le.mpr (smono 0 j (by omega) hj (by omega)))
      subst hj0
      exact (C02_extrapolated ts row hs (by omega) hn (by omega) a).1 h1
    rcases lt_or_ge ts[j + 1] a with h2 | h2
    · have hp0 : j + 1 = ts.length - 1 := by
        by_contra hne
        exact absurd (haft h2 (ts.length - 1) (by omega))
          (not_le.mpr (smono (j + 1) (ts.length - 1) hk (by omega) (by omega)))
      have := (C02_extrapolated ts row hs (by omega) hn (by omega) a).2 (by simp only [← hp0]; exact h2)
      have hp3 : ts.length - 2 = j := by omega
      simp only [← hp0, hp3] at this
      exact this
    · exact C02_linear_between ts row hs (by omega) hn true a j hk h1 h2

/-- A series as it is given, see `SeriesAt`. -/
theorem interp_series (ct row : List (X ℝ)) (hs : ∀ ts : List ℝ, ct = ts.map .fin → ts.Pairwise (· < ·))
    (hl : row.length = ct.length) (hn : ct.length < 2 ^ 64) (a v : ℝ) (order : Int) (h : SeriesAt ct row a order v) :
    interp (if order = 1 then .c0 else .c1) true (.fin a) ct row = .ok (.fin v) := by
  cases h with
  | @nodes ts vals ht hv h =>
    have := hs ts ht
    subst ht hv
    exact interp_spline ts vals this (by simpa using hl) (by simpa using hn) a v order h
  | always ht hv ho =>
    subst ht hv ho
    rw [if_pos rfl]
    exact (C12_constant (K := ℝ) [] [] rfl).2 (.fin a) (by simp) (.fin v)

/-- A coefficient set as it is given: finite nodes in increasing order, at least as many as the spline
order, or the node minus infinity of a constant set; one value per node, one series per coefficient. -/
structure GoodRaw (r : RawSet ℝ) : Prop where
  order : r.order = 1 ∨ r.order = 2
  nodes : (∃ ts : List ℝ, r.ct = ts.map .fin ∧ ts.Pairwise (· < ·) ∧ r.order ≤ ts.length) ∨
    (r.ct = [.ninf] ∧ r.order = 1)
  size : r.ct.length < 2 ^ 64
  len : r.cv.length = r.cm.length
  rows : ∀ row ∈ r.cv, ∃ vals : List ℝ, row = vals.map .fin ∧ vals.length = r.ct.length
  index : ∀ e ∈ r.cm, |e.2| ≤ e.1

theorem GoodRaw.sorted {r : RawSet ℝ} (h : GoodRaw r) (ts : List ℝ) (ht : r.ct = ts.map .fin) :
    ts.Pairwise (· < ·) := by
  rcases h.nodes with ⟨us, h1, h2, -⟩ | ⟨h1, -⟩
  · have : us = ts := List.map_injective_iff.mpr (fun a b h => by simpa using h) (h1.symm.trans ht)
    exact this ▸ h2
  · rw [ht] at h1
    match ts, h1 with
    | [], h1 => simp at h1
    | _ :: _, h1 => simp at h1

theorem GoodRaw.row_len {r : RawSet ℝ} (h : GoodRaw r) (row : List (X ℝ)) (hr : row ∈ r.cv) :
    row.length = r.ct.length := by
  obtain ⟨vals, rfl, hl⟩ := h.rows row hr
  simpa using hl

theorem GoodRaw.order_le {r : RawSet ℝ} (h : GoodRaw r) : r.order ≤ r.ct.length := by
  rcases h.nodes with ⟨us, h1, -, h3⟩ | ⟨h1, h2⟩
  · rw [h1]; simpa using h3
  · rw [h1, h2]; simp

/-- The coefficients of the sets at a time. -/
def splineEntries (raw : List (RawSet ℝ)) (t : ℝ) : List ((Int × Int) × (ℝ → Prop)) :=
  raw.flatMap (fun r => (r.cm.zip r.cv).map (fun e => (e.1, SeriesAt r.ct e.2 t r.order)))

/-- The parsed set. -/
def parsedSet (r : RawSet ℝ) : CoefSet ℝ :=
  ⟨r.ct, r.cv, r.cm, if r.order = 1 then .c0 else .c1⟩

theorem parse_good {r : RawSet ℝ} (h : GoodRaw r) : r.parse = some (parsedSet r) := by
  unfold RawSet.parse parsedSet parseCoefset
  rw [if_neg (by have := h.order; omega), if_neg (by simp [h.len]), if_neg]
  intro hc
  obtain ⟨row, hr, hne⟩ := List.any_eq_true.mp hc
  simp [h.row_len row hr] at hne

theorem parsed_good {r : RawSet ℝ} (h : GoodRaw r) : GoodSet (parsedSet r) := by
  have hn := h.order_le
  refine ⟨?_, ?_, by simpa [parsedSet] using h.size, by simpa [parsedSet] using h.len, ?_, h.index⟩
  · rcases h.order with e | e <;> simp [parsedSet, e]
  · rcases h.order with e | e <;> simp [parsedSet, e] at hn ⊢ <;> omega
  · intro row hr
    simpa [parsedSet] using h.row_len row hr

/-- Finite tables. -/
def finTab (rows : List (ℝ × ℝ)) : Tab (X ℝ) := rows.map (fun p => (.fin p.1, .fin p.2))

theorem finRows_finTab (rows : List (ℝ × ℝ)) : finRows (finTab rows) = some rows := by
  induction rows with
  | nil => rfl
  | cons p l ih =>
    unfold finRows finTab at ih ⊢
    simp only [List.map_cons, List.mapM_cons, ih]
    rfl

theorem cell_finTab (rows : List (ℝ × ℝ)) (r : Nat) (c : Bool) : cell (finTab rows) r c = .fin (cell rows r c) := by
  unfold cell finTab
  rw [List.getElem?_map]
  cases rows[r]? with
  | none => rfl
  | some p => cases c <;> rfl

theorem key_coefRow (e : Int × Int) : key e = (coefRow e.1 e.2, decide (e.2 < 0)) := by
  unfold key coefRow rowIdx colIdx
  rw [add_comm]

theorem ncoef_size (N : Nat) : (coeffSize (N : Int)).toNat = (N + 1) * (N + 2) / 2 := by
  have h1 := two_size (N : Int)
  have h2 := ncoef_two N
  unfold ncoef at h2
  have h3 : ((N : Int) + 2) * (N + 1) = (((N + 1) * (N + 2) : Nat) : Int) := by push_cast; ring
  omega

theorem tableAt_of (raw : List (RawSet ℝ)) (h : ∀ r ∈ raw, GoodRaw r) (N : Nat) (t : ℝ) (rows : List (ℝ × ℝ))
    (ht : TableOf N (splineEntries raw t) rows) :
    TableAt N (raw.map parsedSet) (.fin t) (finTab rows) := by
  refine ⟨?_, ?_, ?_⟩
  · rw [ncoef_size, ← ht.len]
    simp [finTab]
  · intro s hs e he
    obtain ⟨r, hr, rfl⟩ := List.mem_map.mp hs
    have hg := h r hr
    simp only [parsedSet] at he ⊢
    have hv := ht.vals (e.1, SeriesAt r.ct e.2 t r.order)
      (List.mem_flatMap.mpr ⟨r, hr, List.mem_map.mpr ⟨e, he, rfl⟩⟩)
    have hrow := hg.row_len e.2 (List.of_mem_zip (show (e.1, e.2) ∈ _ from he)).2
    rw [interp_series r.ct e.2 hg.sorted hrow hg.size t _ r.order hv, cell_finTab, key_coefRow]
  · intro r c hrc
    rw [cell_finTab, ht.zero r c]
    intro e he hrc'
    obtain ⟨r', hr', he⟩ := List.mem_flatMap.mp he
    obtain ⟨e', he', rfl⟩ := List.mem_map.mp he
    refine hrc (parsedSet r') (List.mem_map.mpr ⟨r', hr', rfl⟩) e'.1
      (List.of_mem_zip (show (e'.1, e'.2) ∈ _ from he')).1 ?_
    rw [key_coefRow, hrc'.1, hrc'.2]

/-- The coefficients kept between the times. -/
structure TempInv (d : Int) (sets : List (CoefSet ℝ)) (c : TempCoef ℝ) : Prop where
  len : c.coef.length = (coeffSize d).toNat
  inv : List.Forall₂ (fun s i => SetInv s i c.coef) sets c.idxLast
  zero : ∀ r k, (∀ s ∈ sets, ∀ e ∈ s.cm, key e ≠ (r, k)) → cell c.coef r k = .fin 0
  last : c.timeLast = .nan ∨ ∀ s ∈ sets, SetAt c.timeLast s c.coef

theorem tempInit_inv (sets : List (CoefSet ℝ)) : TempInv (setsDegree sets) sets (tempInit sets) := by
  refine ⟨zeros_length _, ?_, fun r c _ => cell_zeros _ r c, Or.inl rfl⟩
  unfold tempInit
  simp only
  generalize zeros (X ℝ) (setsDegree sets) = z
  induction sets with
  | nil => exact .nil
  | cons s l ih => exact .cons (fun _ => Or.inl rfl) ih

theorem tempUpd_ok (d : Int) (sets : List (CoefSet ℝ)) (hs : ∀ s ∈ sets, SetOk d s) (hd : ShEval.Disjoint sets)
    (c : TempCoef ℝ) (h : TempInv d sets c) (t : ℝ) (rows : List (ℝ × ℝ))
    (ht : TableAt d sets (.fin t) (finTab rows)) :
    ∃ c', TempInv d sets c' ∧ tempUpd sets c [t] = some (c', rows) := by
  obtain ⟨hlen, hinv, hzero, hlast⟩ := h
  cases he : X.eq (.fin t) c.timeLast with
  | false =>
    obtain ⟨k, idx', h1, h2, h3, h4, h5⟩ := coeffInterp_spec d (.fin t) sets c.idxLast c.coef hs hd hlen hinv
    have hk : TableAt d sets (.fin t) k :=
      ⟨by rw [h2]; exact hlen, h4, fun r c hrc => by rw [h5 r c hrc]; exact hzero r c hrc⟩
    obtain rfl := tableAt_unique d sets hs (.fin t) _ _ hk ht
    refine ⟨⟨finTab rows, .fin t, idx'⟩, ⟨hk.len, h3, hk.zero, Or.inr h4⟩, ?_⟩
    simp [tempUpd, he, h1, finRows_finTab]
  | true =>
    obtain ⟨hte, hn⟩ := X_eq_true he
    have hk : TableAt d sets (.fin t) c.coef := ⟨hlen, by rw [hte]; exact hlast.resolve_left (by rw [← hte]; exact hn), hzero⟩
    have hu := tableAt_unique d sets hs (.fin t) _ _ hk ht
    refine ⟨c, ⟨hlen, hinv, hzero, hlast⟩, ?_⟩
    simp [tempUpd, he, hu, finRows_finTab]

theorem sets_degree (raw : List (RawSet ℝ)) (N : Nat) (hN : MaxDegree (raw.flatMap (fun r => r.cm)) N) :
    setsDegree (raw.map parsedSet) = N := by
  obtain ⟨h0, h1, h2⟩ := setsDegree_spec (raw.map parsedSet)
  have mem : ∀ s ∈ raw.map parsedSet, ∀ e ∈ s.cm, e ∈ raw.flatMap (fun r => r.cm) := by
    intro s hs e he
    obtain ⟨r, hr, rfl⟩ := List.mem_map.mp hs
    exact List.mem_flatMap.mpr ⟨r, hr, he⟩
  apply le_antisymm
  · rcases h2 with h2 | ⟨s, hs, e, he, h2⟩
    · omega
    · rw [← h2]; exact hN.1 e (mem s hs e he)
  · rcases hN.2 with h | ⟨e, he, h⟩
    · omega
    · obtain ⟨r, hr, he⟩ := List.mem_flatMap.mp he
      rw [← h]
      exact h1 (parsedSet r) (List.mem_map.mpr ⟨r, hr, rfl⟩) e he

theorem samePrefix_ok {a b c d lead : List Nat} (ha : a <+: lead) (hb : b <+: lead) :
    samePrefix (a ++ c) (b ++ d) (min a.length b.length) = some () := by
  unfold samePrefix
  rw [if_neg]
  simp only [compareDims, List.any_eq_true, List.mem_range, decide_eq_true_eq, not_exists, not_and, not_not]
  intro i hi
  rw [List.getElem?_append_left (by omega), List.getElem?_append_left (by omega)]
  obtain ⟨u, hu⟩ := ha
  obtain ⟨v, rfl⟩ := hb
  have h1 : (a ++ u)[i]? = (b ++ v)[i]? := by rw [hu]
  rwa [List.getElem?_append_left (by omega), List.getElem?_append_left (by omega)] at h1

/-- **C66**: `shevaltemp` is `sheval` with an array of the coefficients at the times.  Any
array of times and points with matching leading dimensions, any coordinate types, modes, scales (errors
are the same), any item by item evaluation. -/
theorem C66_is_sheval (fl : Nat → Int) (hf : SqrtDegree fl) {St : Type} (evalP : Config ℝ → Nat → Eval St ℝ)
    (start : Nat → St) (junk : Nat → List ℝ) (t x coef : NdArray ℝ) (lt lx lead : List Nat) (N : Nat)
    (T : List Nat → ℝ) (X : List Nat → V3 ℝ) (C : List Nat → List (ℝ × ℝ)) (raw : List (RawSet ℝ))
    (hr : ∀ r ∈ raw, GoodRaw r) (h1 : 1 ≤ raw.length) (h16 : raw.length ≤ 16)
    (hd : (raw.flatMap (fun r => r.cm)).Nodup) (hN : MaxDegree (raw.flatMap (fun r => r.cm)) N)
    (hN2 : ncoef N < 2 ^ 45) (ht : ItemsOf t lt T) (hx : VectorsOf x lx X) (hm : Match lx lt lead)
    (hc : PairsOf coef lt (ncoef N) C) (hC : ∀ idx, Index lt idx → TableOf N (splineEntries raw (T idx)) (C idx))
    (ctIn ctOut mode : Int) (int : Bool) (sp : ℝ) (sg : Scale ℝ) :
    shevaltempArr evalP start junk t x raw ctIn ctOut mode int sp sg =
      sheval fl evalP start junk x coef ctIn ctOut mode int (-1) sp sg := by
  rw [sheval_plain fl hf evalP start junk x coef lx lt lead N X C hx hc hm hN2]
  obtain ⟨hpx, hpt, hpl⟩ := hm
  obtain ⟨rest, rfl⟩ := hpt
  have hparse : raw.mapM RawSet.parse = some (raw.map parsedSet) := by
    clear h1 h16 hd hN hC
    induction raw with
    | nil => rfl
    | cons r l ih =>
      rw [List.mapM_cons, parse_good (hr r (by simp)), ih (fun r h => hr r (List.mem_cons_of_mem _ h))]
      rfl
  have hmx : minNdim x.arr 1 = some () := by simp [minNdim, hx.dim]
  have hl3 : lastIs3 x.arr = some () := by simp [lastIs3, hx.dim]
  have hdeg := sets_degree raw N hN
  have hsp : samePrefix t.arr.dim x.arr.dim (min t.arr.dim.length (x.arr.dim.length - 1)) = some () := by
    have := samePrefix_ok (c := []) (d := [3]) (List.prefix_append lt rest) hpx
    rw [List.append_nil, ← ht.dim, ← hx.dim] at this
    have h2 : lx.length = x.arr.dim.length - 1 := by rw [hx.dim]; simp
    rwa [h2] at this
  have hlead : (if t.arr.dim.length ≥ x.arr.dim.length - 1 then t.arr.dim else x.arr.dim).take
      (max t.arr.dim.length (x.arr.dim.length - 1)) = lt ++ rest := by
    rw [ht.dim, hx.dim]
    simp only [List.length_append, List.length_cons, List.length_nil, Nat.zero_add, Nat.add_sub_cancel]
    rcases hpl with h | h
    · subst h
      split
      · rename_i hle
        have : rest = [] := List.eq_nil_of_length_eq_zero (by have := List.length_append (as := lt) (bs := rest); omega)
        subst this
        simp
      · rw [List.take_append_of_le_length (by simp), List.take_of_length_le (by simp)]
    · have hl := congrArg List.length h
      have : rest = [] := List.eq_nil_of_length_eq_zero (by have := List.length_append (as := lt) (bs := rest); omega)
      subst this
      have := hpx.length_le
      rw [List.append_nil] at this
      rw [if_pos this, List.append_nil, List.take_of_length_le (by omega)]
  have hrun : ∀ (ev : Eval St ℝ) (m : Nat) (s0 : St), runTimed (tempUpd (raw.map parsedSet)) ev junk m lt
      (lt ++ rest) [t] x (tempInit (raw.map parsedSet)) s0 = plain ev junk m (lt ++ rest) x coef s0 := by
    intro ev m s0
    refine runTimed_eq (ts := [t]) (T := fun a => [T a]) (R := C) (Inv := TempInv (setsDegree (raw.map parsedSet))
      (raw.map parsedSet)) ev ?_ ?_ ?_ ?_ ?_ ?_ junk m _ (tempInit_inv _) s0
    · exact .cons (items_fits0 ht List.prefix_rfl) .nil
    · intro a ha
      have hl := (indices_valid ha).length_eq
      have := items_read ht List.prefix_rfl (mem_indices.mp ha)
      rw [List.take_of_length_le (by omega)] at this
      simp [this]
    · intro a ha c hinv
      refine tempUpd_ok _ _ (GoodSet.setOk ?_) ?_ c hinv (T a) (C a) ?_
      · intro s hs
        obtain ⟨r, hr', rfl⟩ := List.mem_map.mp hs
        exact parsed_good (hr r hr')
      · unfold ShEval.Disjoint
        rw [List.flatMap_map]
        exact hd
      · rw [hdeg]
        exact tableAt_of raw hr N (T a) (C a) (hC a (mem_indices.mp ha))
    · exact ⟨hx.ndim, .inl ⟨lx, [3], hx.dim, rfl, hpx⟩⟩
    · obtain ⟨s, hs, hsl⟩ := hc.stride
      exact ⟨by rw [hs, hc.dim]; simp [hsl], .inl ⟨lt, [ncoef N, 2], hc.dim, rfl, List.prefix_append _ _⟩⟩
    · intro idx hi
      exact read_coef hc (List.prefix_append _ _) (mem_indices.mp hi)
  unfold shevaltempArr
  cases hi : checkCT ctIn with
  | none => rfl
  | some i =>
  cases ho : checkCT ctOut with
  | none => rfl
  | some o =>
  cases hm : checkMode mode with
  | none => rfl
  | some m =>
  have hrun' : ∀ (ev : Eval St ℝ) (m : Nat) (s0 : St), runTimed (tempUpd (raw.map parsedSet)) ev junk m t.arr.dim
      (lt ++ rest) [t] x (tempInit (raw.map parsedSet)) s0 = plain ev junk m (lt ++ rest) x coef s0 := by
    rw [ht.dim]; exact hrun
  simp only [hparse, hmx, hl3, hsp, hlead, hrun', hdeg, if_neg (show ¬ raw.length < 1 by omega), 
    if_neg (show ¬ raw.length > 16 by omega), if_neg (show ¬ (N : Int) < 0 by omega), Int.toNat_natCast, orValueError,
    bind, Except.bind]

/-- The node a time belongs to. -/
theorem exists_lastNode (ts : List ℝ) (hs : ts.Pairwise (· < ·)) (hn : 1 ≤ ts.length) (a : ℝ) :
    ∃ j, LastNode ts a j ∧ (a < ts[0] → j = 0) := by
  have smono : ∀ i j (hi : i < ts.length) (hj : j < ts.length), i < j → ts[i] < ts[j] :=
    fun i j hi hj h => List.pairwise_iff_getElem.mp hs i j hi hj h
  have smono' : ∀ i j (hi : i < ts.length) (hj : j < ts.length), i ≤ j → ts[i] ≤ ts[j] := by
    intro i j hi hj h
    rcases Nat.lt_or_ge i j with h1 | h1
    · exact (smono i j hi hj h1).le
    · obtain rfl : i = j := by omega
      exact le_rfl
  by_cases h0 : a < ts[0]
  · exact ⟨0, ⟨by omega, fun h => absurd h0 (not_lt.mpr h), fun _ i hi => smono' 0 i (by omega) hi (by omega)⟩,
      fun _ => rfl⟩
  · classical
    have hex : ∃ h : 0 < ts.length, ts[0] ≤ a := ⟨by omega, not_lt.mp h0⟩
    set j := Nat.findGreatest (fun i => ∃ h : i < ts.length, ts[i] ≤ a) (ts.length - 1) with hj
    obtain ⟨hjl, hja⟩ := Nat.findGreatest_spec (P := fun i => ∃ h : i < ts.length, ts[i] ≤ a)
      (n := ts.length - 1) (Nat.zero_le _) hex
    rw [← hj] at hjl
    simp only [← hj] at hja
    refine ⟨j, ⟨hjl, fun _ i hi => ?_, fun h => absurd h (not_lt.mpr hja)⟩, fun h => absurd h h0⟩
    rcases Nat.lt_or_ge j i with h | h
    · right
      by_contra hc
      exact Nat.findGreatest_is_greatest (P := fun i => ∃ h : i < ts.length, ts[i] ≤ a) (n := ts.length - 1)
        h (by omega) ⟨hi, not_lt.mp hc⟩
    · exact .inl (smono' i j hi hjl h)

/-- Every series has a value at every time. -/
theorem exists_spline (ts row : List ℝ) (hs : ts.Pairwise (· < ·)) (hl : row.length = ts.length) (order : Int)
    (ho : order = 1 ∨ order = 2) (hn : order ≤ ts.length) (a : ℝ) : ∃ v, SplineAt ts row a order v := by
  have smono : ∀ i j (hi : i < ts.length) (hj : j < ts.length), i < j → ts[i] < ts[j] :=
    fun i j hi hj h => List.pairwise_iff_getElem.mp hs i j hi hj h
  have smono' : ∀ i j (hi : i < ts.length) (hj : j < ts.length), i ≤ j → ts[i] ≤ ts[j] := by
    intro i j hi hj h
    rcases Nat.lt_or_ge i j with h1 | h1
    · exact (smono i j hi hj h1).le
    · obtain rfl : i = j := by omega
      exact le_rfl
  obtain ⟨j, h, h0⟩ := exists_lastNode ts hs (by omega) a
  have hj := h.hj
  rcases ho with rfl | rfl
  · exact ⟨row[j], .constant h (List.getElem?_eq_getElem (by omega))⟩
  · have adj : ∀ k (hk : k + 1 < ts.length) i (hi : i < ts.length), ts[i] ≤ ts[k] ∨ ts[k + 1] ≤ ts[i] := by
      intro k hk i hi
      rcases Nat.lt_or_ge k i with h | h
      · exact .inr (smono' _ _ hk hi h)
      · exact .inl (smono' _ _ hi (by omega) h)
    by_cases hlast : j + 1 < ts.length
    · refine ⟨_, .linear (j := j) (k := j + 1) ⟨hj, hlast, smono _ _ hj hlast (by omega), adj j hlast, ?_, ?_⟩
        (List.getElem?_eq_getElem (by omega)) (List.getElem?_eq_getElem (by omega))⟩
      · exact h.before
      · intro hlt
        rcases h.latest ((smono _ _ hj hlast (by omega)).le.trans hlt.le) (j + 1) hlast with h1 | h1
        · exact absurd h1 (not_le.mpr (smono _ _ hj hlast (by omega)))
        · exact absurd h1 (not_lt.mpr hlt.le)
    · obtain ⟨k, rfl⟩ : ∃ k, j = k + 1 := ⟨j - 1, by omega⟩
      refine ⟨_, .linear (j := k) (k := k + 1) ⟨by omega, hj, smono _ _ (by omega) hj (by omega), adj k hj, ?_, ?_⟩
        (List.getElem?_eq_getElem (by omega)) (List.getElem?_eq_getElem (by omega))⟩
      · intro hlt
        have := h0
        by_cases hh : a < ts[0]
        · have := h0 hh
          omega
        · have h1 : a < ts[k + 1] := hlt.trans (smono _ _ (by omega) hj (by omega))
          have := h.before h1 0 (by omega)
          exact absurd this (not_le.mpr (smono _ _ (by omega) hj (by omega)))
      · intro _ i hi
        exact smono' _ _ hi hj (by omega)

theorem exists_series {r : RawSet ℝ} (g : GoodRaw r) {row : List (X ℝ)} (hr : row ∈ r.cv) (a : ℝ) :
    ∃ v, SeriesAt r.ct row a r.order v := by
  obtain ⟨vals, h1, h2⟩ := g.rows row hr
  rcases g.nodes with ⟨ts, h3, h4, h5⟩ | ⟨h3, h4⟩
  · rw [h3, List.length_map] at h2
    obtain ⟨v, hv⟩ := exists_spline ts vals h4 h2 r.order g.order h5 a
    exact ⟨v, .nodes h3 h1 hv⟩
  · rw [h3] at h2
    match vals, h2 with
    | [v], _ => exact ⟨v, .always h3 h1 h4⟩

/-- Tables exist. -/
theorem exists_tableOf (N : Nat) (entries : List ((Int × Int) × (ℝ → Prop)))
    (hnd : (entries.map Prod.fst).Nodup) (hi : ∀ e ∈ entries, |e.1.2| ≤ e.1.1 ∧ e.1.1 ≤ N)
    (hex : ∀ e ∈ entries, ∃ v, e.2 v) : ∃ rows, TableOf N entries rows := by
  classical
  choose! f hf using hex
  obtain ⟨t, h1, h2, h3, h4⟩ := write_spec (N : Int) (entries.map Prod.fst) entries (by simp)
    (by intro e he
        obtain ⟨e', he', rfl⟩ := List.mem_map.mp he
        exact hi e' he') hnd (fun e => some (f e)) f (fun _ _ => rfl) (zeros ℝ (N : Int)) (zeros_length _)
  refine ⟨t, by rw [h2, zeros_length, ncoef_size], ?_, ?_⟩
  · intro e he
    have hz : (e.1, e) ∈ (entries.map Prod.fst).zip entries := by
      obtain ⟨k, hk, rfl⟩ := List.getElem_of_mem he
      refine List.mem_iff_getElem.mpr ⟨k, by simpa using hk, by simp⟩
    have := h3 _ hz
    rw [key_coefRow] at this
    simp only at this
    rw [this]
    exact hf e he
  · intro r c hrc
    rw [h4 r c, cell_zeros]
    intro e he hk
    obtain ⟨e', he', rfl⟩ := List.mem_map.mp he
    rw [key_coefRow] at hk
    simp only [Prod.mk.injEq] at hk
    exact hrc e' he' ⟨hk.1.symm, hk.2.symm⟩

/-- **C66**: at every time there is one table of the coefficients of the sets. -/
theorem C66_table_exists (raw : List (RawSet ℝ)) (hr : ∀ r ∈ raw, GoodRaw r)
    (hd : (raw.flatMap (fun r => r.cm)).Nodup) (N : Nat) (hN : MaxDegree (raw.flatMap (fun r => r.cm)) N) (t : ℝ) :
    ∃! rows, TableOf N (splineEntries raw t) rows := by
  have hfst : (splineEntries raw t).map Prod.fst = raw.flatMap (fun r => r.cm) := by
    unfold splineEntries
    rw [List.map_flatMap]
    refine List.flatMap_congr (fun r h => ?_)
    rw [List.map_map]
    exact List.map_fst_zip (le_of_eq (hr r h).len.symm)
  obtain ⟨rows, h⟩ := exists_tableOf N (splineEntries raw t) (by rw [hfst]; exact hd)
    (by intro e he
        obtain ⟨r, hr', he⟩ := List.mem_flatMap.mp he
        obtain ⟨e', he', rfl⟩ := List.mem_map.mp he
        have hm := (List.of_mem_zip (show (e'.1, e'.2) ∈ _ from he')).1
        exact ⟨(hr r hr').index _ hm, hN.1 _ (List.mem_flatMap.mpr ⟨r, hr', hm⟩)⟩)
    (by intro e he
        obtain ⟨r, hr', he⟩ := List.mem_flatMap.mp he
        obtain ⟨e', he', rfl⟩ := List.mem_map.mp he
        have g := hr r hr'
        exact exists_series g (List.of_mem_zip (show (e'.1, e'.2) ∈ _ from he')).2 t)
  refine ⟨rows, h, fun rows' h' => ?_⟩
  have hs : ∀ s ∈ raw.map parsedSet, SetOk N s := by
    rw [← sets_degree raw N hN]
    exact GoodSet.setOk (by
      intro s hs
      obtain ⟨r, hr', rfl⟩ := List.mem_map.mp hs
      exact parsed_good (hr r hr'))
  have := tableAt_unique N _ hs _ _ _ (tableAt_of raw hr N t rows' h') (tableAt_of raw hr N t rows h)
  have h2 := congrArg finRows this
  rw [finRows_finTab, finRows_finTab] at h2
  exact Option.some.inj h2

theorem cstrides_pair (lt : List Nat) (n : Nat) :
    ∃ s, cstrides (lt ++ [n, 2]) = s ++ [2, 1] ∧ s.length = lt.length := by
  induction lt with
  | nil => exact ⟨[], by simp [cstrides], rfl⟩
  | cons m l ih =>
    obtain ⟨s, h1, h2⟩ := ih
    exact ⟨((l ++ [n, 2]).prod : Int) :: s, by simp [cstrides, h1], by simp [h2]⟩

/-- An array of tables. -/
theorem exists_pairs (lt : List Nat) (n : Nat) (C : List Nat → List (ℝ × ℝ))
    (hC : ∀ idx, Index lt idx → (C idx).length = n) : ∃ coef : NdArray ℝ, PairsOf coef lt n C := by
  set F : List Nat → ℝ := fun idx =>
    cell (C (idx.take lt.length)) (idx.getD lt.length 0) (decide (idx.getD (lt.length + 1) 0 = 1)) with hF
  have h := items_new (dims := lt ++ [n, 2]) F
  refine ⟨_, h.dim, ?_, hC, ?_⟩
  · exact cstrides_pair lt n
  · intro idx hidx k p hp
    have hl := index_length hidx
    have hk : k < n := by
      rw [← hC idx hidx]
      exact (List.getElem?_eq_some_iff.mp hp).1
    have hi : ∀ c, c < 2 → Index (lt ++ [n, 2]) (idx ++ [k, c]) := by
      intro c hc
      exact List.rel_append hidx (.cons hk (.cons hc .nil))
    constructor
    · rw [h.get _ (hi 0 (by omega)), hF]
      simp [← hl, List.getElem?_append_right, cell, hp]
    · rw [h.get _ (hi 1 (by omega)), hF]
      simp [← hl, List.getElem?_append_right, cell, hp]

/-- **C66**: `shevaltemp` on arrays (partial as C49: from degree 1, coordinates of a point
next to each other in the memory).  With matching leading dimensions the call succeeds, the outputs have the
longer leading dimensions, and the items at each index are the outputs of the single evaluation
of the point at this index with the coefficients interpolated at the time at this index. -/
theorem C66_shevaltemp_partial (alloc : Nat → Mem ℝ) (ha : ∀ N, MemOk (alloc N) N) (junk : Nat → List ℝ)
    (hj : ∀ n, (junk n).length = n) (t x : NdArray ℝ) (lt lx lead : List Nat) (N : Nat)
    (T : List Nat → ℝ) (X : List Nat → V3 ℝ) (raw : List (RawSet ℝ))
    (hr : ∀ r ∈ raw, GoodRaw r) (hr1 : 1 ≤ raw.length) (h16 : raw.length ≤ 16)
    (hd : (raw.flatMap (fun r => r.cm)).Nodup) (hN : MaxDegree (raw.flatMap (fun r => r.cm)) N)
    (hN1 : 1 ≤ N) (hN2 : ncoef N < 2 ^ 45) (ht : ItemsOf t lt T) (hx : VectorsOf x lx X)
    (h1 : x.arr.stride.getLast? = some 1) (hm : Match lx lt lead) (i o : CT) (mode : Nat)
    (hmode : mode = 1 ∨ mode = 2 ∨ mode = 3) (int : Bool) (sp : ℝ) (sg : Scale ℝ) (g : V3 ℝ) (hg : ScaleOf sg g) :
    ∃ r, shevaltempArr (fun c m s v rows => modelEvalR c m s v rows) (fun N => init (alloc N)) junk t x raw
        (code i) (code o) mode int sp sg = .ok r ∧
      r.shape = lead ∧ (∀ p, r.pot = some p → p.length = lead.prod) ∧
      (∀ p, r.grd = some p → p.length = (lead ++ [3]).prod) ∧
      (r.pot.isSome = true ↔ mode = 1 ∨ mode = 3) ∧ (r.grd.isSome = true ↔ mode = 2 ∨ mode = 3) ∧
      ∀ idx, Index lead idx → ∀ rows, TableOf N (splineEntries raw (T (idx.take lt.length))) rows →
        ∃ u, shevalR int N i o mode sp g (alloc N) [(X (idx.take lx.length), rows)] = some [u] ∧
        r.pot.bind (fun p => p[rank lead idx]?) = u.1 ∧
        ∀ k : Fin 3, r.grd.bind (fun p => p[rank (lead ++ [3]) (idx ++ [k.val])]?) =
          u.2.map (fun v => comp v k) := by
  classical
  obtain ⟨fl, hf⟩ : ∃ fl, SqrtDegree fl := ⟨fun s => if s = 0 then -1 else
      truncZ ((Real.sqrt (8 * s + 1) * (1 + 0) - 3) / 2 * (1 + 0)), rfl,
    fun s h _ => ⟨0, 0, by norm_num, by norm_num, by simp only [show s ≠ 0 by omega, if_false]⟩⟩
  choose tab htab huniq using C66_table_exists raw hr hd N hN
  have hlen : ∀ idx, Index lt idx → (tab (T idx)).length = ncoef N := fun idx _ => (htab (T idx)).len
  obtain ⟨coef, hc⟩ := exists_pairs lt (ncoef N) (fun idx => tab (T idx)) hlen
  have hn : 1 ≤ ncoef N := by have := ncoef_two N; nlinarith
  have hD : IsLargest (ncoef N) N := by
    refine ⟨le_rfl, fun d h => ?_⟩
    by_contra hc
    have h1 := ncoef_mono (show N + 1 ≤ d by omega)
    have h3 := ncoef_two N
    have h4 := ncoef_two (N + 1)
    nlinarith
  obtain ⟨r, e1, e2, e3, e4, e5, e6, e7⟩ := C49_sheval_partial fl hf alloc ha junk hj x coef lx lt lead (ncoef N) X
    (fun idx => tab (T idx)) hx h1 hc hm i o mode hmode int (-1) N hn hN2 hN1 ⟨N, hD, by simp⟩ sp sg g hg
  refine ⟨r, ?_, e2, e3, e4, e5, e6, ?_⟩
  · rw [← e1]
    exact C66_is_sheval fl hf _ _ junk t x coef lt lx lead N T X (fun idx => tab (T idx)) raw hr hr1 h16 hd hN hN2 ht hx
      hm hc (fun idx _ => htab (T idx)) _ _ _ int sp sg
  · intro idx hi rows hrows
    rw [huniq _ rows hrows]
    exact e7 idx hi

/-- Arguments common to `shevaltemp` and `sheval2dfs` which are refused. -/
def BadCall (x : NdArray ℝ) (ctIn ctOut mode : Int) (sg : Scale ℝ) : Prop :=
  (ctIn ≠ 0 ∧ ctIn ≠ 1 ∧ ctIn ≠ 2) ∨ (ctOut ≠ 0 ∧ ctOut ≠ 1 ∧ ctOut ≠ 2) ∨ (mode ≠ 1 ∧ mode ≠ 2 ∧ mode ≠ 3) ∨
    x.arr.dim = [] ∨ x.arr.dim.getLast? ≠ some 3 ∨ ∃ l, sg = .vector l ∧ l.length ≠ 3

/-- Two shapes which differ in a dimension both have. -/
def Differ (a b : List Nat) : Prop := ¬ a <+: b ∧ ¬ b <+: a

theorem badCall_none {x : NdArray ℝ} {ctIn ctOut mode : Int} {sg : Scale ℝ} (h : BadCall x ctIn ctOut mode sg) :
    checkCT ctIn = none ∨ checkCT ctOut = none ∨ checkMode mode = none ∨ minNdim x.arr 1 = none ∨
      lastIs3 x.arr = none ∨ sg.get = none := by
  have hct : ∀ c : Int, c ≠ 0 ∧ c ≠ 1 ∧ c ≠ 2 → checkCT c = none := by
    rintro c ⟨h0, h1, h2⟩
    simp [checkCT, h0, h1, h2]
  rcases h with h | h | h | h | h | ⟨l, rfl, hl⟩
  · exact .inl (hct _ h)
  · exact .inr (.inl (hct _ h))
  · exact .inr (.inr (.inl (by simp [checkMode, h.1, h.2.1, h.2.2])))
  · exact .inr (.inr (.inr (.inl (by simp [minNdim, h]))))
  · refine .inr (.inr (.inr (.inr (.inl ?_))))
    unfold lastIs3
    rw [← List.getLast?_eq_getElem?, if_pos h]
  · refine .inr (.inr (.inr (.inr (.inr ?_))))
    match l, hl with
    | [], _ => rfl
    | [_], _ => rfl
    | [_, _], _ => rfl
    | [_, _, _], h => exact absurd rfl h
    | _ :: _ :: _ :: _ :: _, _ => rfl

theorem samePrefix_differ {a b c d : List Nat} (h : Differ a b) :
    samePrefix (a ++ c) (b ++ d) (min a.length b.length) = none := by
  unfold samePrefix
  rw [if_pos]
  by_contra hc
  simp only [compareDims, List.any_eq_true, List.mem_range, decide_eq_true_eq, not_exists, not_and, not_not] at hc
  have hget : ∀ i, i < min a.length b.length → a[i]? = b[i]? := by
    intro i hi
    have := hc i hi
    rwa [List.getElem?_append_left (by omega), List.getElem?_append_left (by omega)] at this
  rcases le_total a.length b.length with hl | hl
  · refine h.1 (List.prefix_iff_eq_take.mpr (List.ext_getElem? fun i => ?_))
    by_cases hi : i < a.length
    · rw [List.getElem?_take_of_lt hi, hget i (by omega)]
    · rw [List.getElem?_eq_none (by omega), List.getElem?_eq_none (by simp; omega)]
  · refine h.2 (List.prefix_iff_eq_take.mpr (List.ext_getElem? fun i => ?_))
    by_cases hi : i < b.length
    · rw [List.getElem?_take_of_lt hi, hget i (by omega)]
    · rw [List.getElem?_eq_none (by omega), List.getElem?_eq_none (by simp; omega)]

/-- **C66**: what `shevaltemp` refuses with a `ValueError`: wrong coordinate types, modes,
scales and points, no or more than 16 coefficient sets, a set with a wrong spline order or
mismatching sizes, times and points with different dimensions. -/
theorem C66_rejects {St : Type} (evalP : Config ℝ → Nat → Eval St ℝ) (start : Nat → St) (junk : Nat → List ℝ)
    (t x : NdArray ℝ) (raw : List (RawSet ℝ)) (ctIn ctOut mode : Int) (int : Bool) (sp : ℝ) (sg : Scale ℝ)
    (h : BadCall x ctIn ctOut mode sg ∨ raw = [] ∨ 16 < raw.length ∨
      (∃ r ∈ raw, (r.order ≠ 1 ∧ r.order ≠ 2) ∨ r.cv.length ≠ r.cm.length ∨
        ∃ row ∈ r.cv, row.length ≠ r.ct.length) ∨
      ∃ lx k, x.arr.dim = lx ++ [k] ∧ Differ t.arr.dim lx) :
    shevaltempArr evalP start junk t x raw ctIn ctOut mode int sp sg = .error .valueError := by
  unfold shevaltempArr
  cases h1 : checkCT ctIn with
  | none => rfl
  | some i =>
  cases h2 : checkCT ctOut with
  | none => rfl
  | some o =>
  cases h3 : checkMode mode with
  | none => rfl
  | some m =>
  by_cases h4 : raw.length < 1
  · simp only [if_pos h4]; rfl
  by_cases h5 : raw.length > 16
  · simp only [if_neg h4, if_pos h5]; rfl
  simp only [if_neg h4, if_neg h5, orValueError, bind, Except.bind]
  cases h6 : raw.mapM RawSet.parse with
  | none => rfl
  | some sets =>
  cases h7 : minNdim x.arr 1 with
  | none => rfl
  | some _ =>
  by_cases h8 : setsDegree sets < 0
  · simp only [if_pos h8]
  simp only [if_neg h8]
  cases h9 : lastIs3 x.arr with
  | none => rfl
  | some _ =>
  cases h10 : samePrefix t.arr.dim x.arr.dim (min t.arr.dim.length (x.arr.dim.length - 1)) with
  | none => rfl
  | some _ =>
  cases h11 : sg.get with
  | none => rfl
  | some g =>
  exfalso
  rcases h with h | h | h | ⟨r, hr, h⟩ | ⟨lx, k, hx, h⟩
  · have := badCall_none h
    simp [h1, h2, h3, h7, h9, h11] at this
  · simp [h] at h4
  · omega
  · have hp : r.parse = none := by
      obtain ⟨hc, -⟩ := C05_parse r.ct r.cv r.cm r.order
      by_contra hne
      obtain ⟨s, hs⟩ := Option.ne_none_iff_exists'.mp hne
      obtain ⟨g1, g2, g3⟩ := hc.mp ⟨s, hs⟩
      rcases h with h | h | ⟨row, hrow, h⟩
      · omega
      · exact h g2
      · exact h (g3 _ hrow)
    obtain ⟨k, hk, rfl⟩ := List.getElem_of_mem hr
    have hg := mapM_get h6 k
    have hl := mapM_length h6
    rw [List.getElem?_eq_getElem hk, List.getElem?_eq_getElem (by omega), Option.bind_some, hp] at hg
    exact absurd hg (by simp)
  · have := samePrefix_differ (c := []) (d := [k]) h
    have hl : lx.length = x.arr.dim.length - 1 := by rw [hx]; simp
    rw [List.append_nil, ← hx, hl, h10] at this
    exact absurd this (by simp)

/-- Three sets: a linear one with three coefficients, a piecewise constant one and one without time
dependence. -/
noncomputable def sampleRaw : List (RawSet ℝ) :=
  [⟨[.fin 2000, .fin 2005], [[.fin 1, .fin 2], [.fin 3, .fin 4], [.fin 5, .fin 7]], [(1, 0), (1, 1), (1, -1)], 2⟩,
    ⟨[.fin 0], [[.fin 7]], [(2, 0)], 1⟩, ⟨[.ninf], [[.fin 9]], [(2, 1)], 1⟩]

example : (∀ r ∈ sampleRaw, GoodRaw r) ∧ (sampleRaw.flatMap (fun r => r.cm)).Nodup ∧
    MaxDegree (sampleRaw.flatMap (fun r => r.cm)) 2 ∧ ncoef 2 < 2 ^ 45 := by
  refine ⟨?_, by decide, ⟨by decide, .inr ⟨(2, 0), by decide, rfl⟩⟩, by decide⟩
  intro r hr
  simp only [sampleRaw, List.mem_cons, List.not_mem_nil, or_false] at hr
  rcases hr with rfl | rfl | rfl
  · refine ⟨by simp, .inl ⟨[2000, 2005], rfl, by norm_num, by simp⟩, by simp, rfl, ?_, by decide⟩
    intro row hr
    simp only [List.mem_cons, List.not_mem_nil, or_false] at hr
    rcases hr with rfl | rfl | rfl
    exacts [⟨[1, 2], rfl, rfl⟩, ⟨[3, 4], rfl, rfl⟩, ⟨[5, 7], rfl, rfl⟩]
  · exact ⟨by simp, .inl ⟨[0], rfl, by norm_num, by simp⟩, by simp, rfl, by
      intro row hr; rw [List.mem_singleton.mp hr]; exact ⟨[7], rfl, rfl⟩, by decide⟩
  · exact ⟨by simp, .inr ⟨rfl, rfl⟩, by simp, rfl, by
      intro row hr; rw [List.mem_singleton.mp hr]; exact ⟨[9], rfl, rfl⟩, by decide⟩

example : SplineAt [(2000 : ℝ), 2005] [5, 7] (2002 + 1 / 2) 2 6 := by
  have h := SplineAt.linear (ts := [(2000 : ℝ), 2005]) (row := [5, 7]) (a := 2002 + 1 / 2) (j := 0) (k := 1)
    (u := 5) (w := 7) ⟨by simp, by simp, by norm_num, by
      intro i hi
      simp only [List.length_cons, List.length_nil] at hi
      interval_cases i <;> norm_num, by norm_num, by norm_num⟩ rfl rfl
  have e : line ([(2000 : ℝ), 2005][0]) 5 ([(2000 : ℝ), 2005][1]) 7 (2002 + 1 / 2) = 6 := by norm_num [line]
  rwa [e] at h

example : Match [4, 2] [4] [4, 2] ∧ Match [] [3] [3] ∧ Differ [2, 3] [2, 4] :=
  ⟨⟨List.prefix_rfl, by decide, .inl rfl⟩, ⟨by decide, List.prefix_rfl, .inr rfl⟩, by decide, by decide⟩

-- one time for each of two rows of points; the output shows the coefficient (1, -1) plus the first coordinate
example : (match shevaltempArr (K := ℚ) (fun _ _ (s : Unit) v rows =>
        some (s, (rows[2]?).map (fun r => r.2 + v.x), none)) (fun _ => ()) (fun n => List.replicate n 0)
      (newArray [2] [2000, 2010]) (newArray [2, 2, 3] [10, 0, 0, 20, 0, 0, 30, 0, 0, 40, 0, 0])
      [⟨[.fin 2000, .fin 2005], [[.fin 1, .fin 2], [.fin 3, .fin 4], [.fin 5, .fin 7]], [(1, 0), (1, 1), (1, -1)], 2⟩]
      0 0 1 true 1 .default with
    | .ok r => r.shape == [2, 2] && r.pot == some [15, 25, 39, 49]
    | .error _ => false) = true := by
  decide +kernel

end Verif.Props
