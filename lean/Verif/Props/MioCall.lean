import Verif.Model.MioCall
import Verif.Props.MioFiles

/-!
# C82: coefficients of MIO models at given times
-/

set_option linter.unusedSectionVars false

namespace Verif.Props

open Verif.Geo Verif.Spec Verif.ShPoint Verif.FullEval Verif.Arr Verif.Buf Verif.Field Verif.Coeffs Verif.MioField
open Verif.Parsers Verif.MioFiles

/-! ### Specification -/

/-- Sets of coefficients which can be evaluated: rows of the given size, indices with orders up to the degrees, each once, wave
numbers as in C29; the largest of the degrees asked for is `N`. -/
structure CallableMio (c : MioCoef ℝ) (opt : Options ℝ) (N : Nat) : Prop where
  nonempty : c.entries ≠ []
  size : ∀ e ∈ c.entries, e.2.length = c.ns * c.np
  index : ∀ e ∈ c.entries, |e.1.2| ≤ e.1.1
  nodup : (c.entries.map Prod.fst).Nodup
  degrees : c.pmin.natAbs ≤ 1 ∨ c.pmin.natAbs ≤ c.smin.natAbs ∨ c.pmin.natAbs ≤ (c.smin + c.ns - 1).natAbs ∨
    c.pmin.natAbs ≤ (c.pmin + c.np - 1).natAbs
  degree : MaxDegree ((c.entries.map Prod.fst).filter (Kept opt)) N

/-- The coefficients called with times and magnetic times (arrays of one shape) give the degree `N` and, at each index, the
table with the values of the entries at these times. -/
def CallsAs (coef : MioCoef ℝ) (opt : Options ℝ) (N : Nat) (entries : ℝ → ℝ → List ((Int × Int) × (ℝ → Prop))) : Prop :=
  ∀ (alloc : Nat → Mem ℝ) (junk : Nat → List ℝ), (∀ n, (junk n).length = n) →
  ∀ (junkX : Nat → List (X ℝ)), (∀ n, (junkX n).length = n) → ∀ (junk2 : Nat → ℝ × ℝ) (year : Int)
    (time : NdArray (X ℝ)) (mt : NdArray ℝ) (lead : List Nat) (T M : List Nat → ℝ),
    ItemsOf time lead (fun i => .fin (T i)) → ItemsOf mt lead M → lead.length ≤ 15 →
  ∃ out V, callMio libm (mioEnv alloc junk junkX junk2 year) coef time mt opt.minDegree opt.maxDegree = .ok (out, (N : Int)) ∧
    ItemsOf out (lead ++ [(N + 1) * (N + 2) / 2, 2]) V ∧
    ∀ i, Index lead i → ∃ rows, Spec.TableOf N (entries (T i) (M i)) rows ∧
      ∀ r < (N + 1) * (N + 2) / 2, V (i ++ [r, 0]) = cell rows r false ∧ V (i ++ [r, 1]) = cell rows r true

/-! ### Arrays -/

theorem new_items {A : Type} (z : A) (dims : List Nat) (buf : List A) (h : buf.length = dims.prod) :
    ItemsOf (newArray dims buf) dims (fun idx => buf.getD (rank dims idx) z) := by
  refine ⟨rfl, by simp [newArray, contiguous, cstrides_length], fun idx hi => ?_⟩
  unfold elem newArray contiguous
  simp only
  rw [← offset_eq, ← rank_eq hi, zero_add]
  unfold rdI rd
  have hr : rank dims idx < buf.length := by
    have := indices_rank hi
    obtain ⟨hk, -⟩ := List.getElem?_eq_some_iff.mp this
    rw [indices_length] at hk
    omega
  rw [if_pos (by omega), Int.toNat_natCast, List.getD_eq_getElem?_getD, List.getElem?_eq_getElem hr]
  rfl

theorem pairsFlat_length {A : Type} : ∀ l : List (A × A), (flatPairs l).length = l.length * 2
  | [] => rfl
  | p :: l => by
    have := pairsFlat_length l
    simp only [flatPairs, List.flatMap_cons, List.length_append, List.length_cons, List.length_nil] at this ⊢
    omega

theorem pairsFlat_get {A : Type} : ∀ (l : List (A × A)) (k : Nat),
    (flatPairs l)[k * 2]? = (l[k]?).map Prod.fst ∧ (flatPairs l)[k * 2 + 1]? = (l[k]?).map Prod.snd
  | [], k => by simp [flatPairs]
  | p :: l, 0 => by simp [flatPairs]
  | p :: l, k + 1 => by
    have := pairsFlat_get l k
    have e1 : (k + 1) * 2 = k * 2 + 1 + 1 := by omega
    rw [e1]
    have e2 : k * 2 + 1 + 1 + 1 = (k * 2 + 1) + 1 + 1 := by omega
    simpa [flatPairs, e2] using this

theorem coeff_matrices (ns np : Nat) (sub : List ((Int × Int) × List (ℝ × ℝ))) (h : ∀ e ∈ sub, e.2.length = ns * np) :
    MatricesOf (coeffArray ns np sub) [sub.length] ns np
      (fun idx i j => (((sub.map Prod.snd).getD (idx.headD 0) []).getD (i * np + j) (0, 0)).1)
      (fun idx i j => (((sub.map Prod.snd).getD (idx.headD 0) []).getD (i * np + j) (0, 0)).2) := by
  have hb : ∀ b ∈ sub.map (fun e => flatPairs e.2), b.length = ns * np * 2 := by
    intro b hb
    obtain ⟨e, he, rfl⟩ := List.mem_map.mp hb
    rw [pairsFlat_length, h e he]
  have hbuf : (sub.flatMap (fun e => flatPairs e.2)) = (sub.map (fun e => flatPairs e.2)).flatten := by
    rw [List.flatMap_def]
  refine ⟨rfl, ⟨[(([ns, np, 2] : List Nat).prod : Int)], by simp [coeffArray, newArray, contiguous, cstrides], rfl⟩, ?_⟩
  rintro idx hi i hi' j hj'
  obtain ⟨e, rfl⟩ : ∃ e, idx = [e] := by
    cases hi with
    | cons _ hn => cases hn; exact ⟨_, rfl⟩
  have he : e < sub.length := by
    cases hi with
    | cons h _ => exact h
  have hit := new_items (0 : ℝ) [sub.length, ns, np, 2] (sub.flatMap (fun e => flatPairs e.2)) (by
    rw [hbuf, flatten_length _ _ hb, List.length_map]
    simp only [List.prod_cons, List.prod_nil]
    ring)
  have hij : i * np + j < ns * np := by
    calc i * np + j < i * np + np := by omega
      _ = (i + 1) * np := by ring
      _ ≤ ns * np := Nat.mul_le_mul_right _ hi'
  have hlen : (sub[e]).2.length = ns * np := h _ (List.getElem_mem he)
  have key : ∀ b < 2, (sub.flatMap (fun e => flatPairs e.2)).getD (rank [sub.length, ns, np, 2] [e, i, j, b]) 0 =
      (flatPairs (sub[e]).2).getD ((i * np + j) * 2 + b) 0 := by
    intro b hb'
    have hr : rank [sub.length, ns, np, 2] [e, i, j, b] = e * (ns * np * 2) + ((i * np + j) * 2 + b) := by
      simp only [rank, List.prod_cons, List.prod_nil]
      ring
    rw [hr, hbuf, List.getD_eq_getElem?_getD, flatten_get (ns * np * 2) _ _ _ hb (by omega), List.getElem?_map,
      List.getElem?_eq_getElem he, Option.map_some, Option.bind_some, List.getD_eq_getElem?_getD]
  have hrow : (sub.map Prod.snd).getD (([e] : List Nat).headD 0) [] = (sub[e]).2 := by
    rw [List.getD_eq_getElem?_getD]
    simp [he]
  have hp := pairsFlat_get (sub[e]).2 (i * np + j)
  have hg : (sub[e]).2[i * np + j]? = some ((sub[e]).2[i * np + j]'(by omega)) := List.getElem?_eq_getElem _
  have hd : (sub[e]).2.getD (i * np + j) (0, 0) = (sub[e]).2[i * np + j]'(by omega) := by
    rw [List.getD_eq_getElem?_getD, hg]; rfl
  rw [hg] at hp
  refine ⟨?_, ?_⟩
  · show elem (coeffArray ns np sub).mem _ _ [e, i, j, 0] = _
    have := hit.get [e, i, j, 0] (.cons he (.cons hi' (.cons hj' (.cons (by omega) .nil))))
    rw [key 0 (by omega), List.getD_eq_getElem?_getD, Nat.add_zero, hp.1] at this
    simp only [hrow, hd]
    exact this
  · show elem (coeffArray ns np sub).mem _ _ [e, i, j, 1] = _
    have := hit.get [e, i, j, 1] (.cons he (.cons hi' (.cons hj' (.cons (by omega) .nil))))
    rw [key 1 (by omega), List.getD_eq_getElem?_getD, hp.2] at this
    simp only [hrow, hd]
    exact this

theorem CallableMio.sub {c : MioCoef ℝ} {opt : Options ℝ} {N : Nat} (h : CallableMio c opt N) :
    (subsetDegree c.entries opt.minDegree opt.maxDegree).2 = c.entries.filter (fun e => Kept opt e.1) :=
  C11_kept c.entries h.nonempty opt.minDegree opt.maxDegree

theorem CallableMio.max {c : MioCoef ℝ} {opt : Options ℝ} {N : Nat} (h : CallableMio c opt N) :
    (subsetDegree c.entries opt.minDegree opt.maxDegree).1 = N := by
  have hk : (c.entries.map Prod.fst).filter (Kept opt) = (c.entries.filter (fun e => Kept opt e.1)).map Prod.fst := by
    rw [List.filter_map]; rfl
  obtain ⟨d1, d2⟩ := h.degree
  rw [hk] at d1 d2
  rcases C11_degree c.entries h.nonempty opt.minDegree opt.maxDegree with ⟨h1, h2⟩ | ⟨⟨e, he, h1⟩, h2⟩
  · rw [h2]
    rcases d2 with d2 | ⟨e, he, -⟩
    · rw [d2]; rfl
    · have h1' : c.entries.filter (fun e => Kept opt e.1) = [] := h1
      rw [h1'] at he
      simp at he
  · have he' : e ∈ c.entries.filter (fun e => Kept opt e.1) := he
    have k1 : e.1.1 ≤ N := d1 _ (List.mem_map_of_mem he')
    rcases d2 with d2 | ⟨e', hm, d2⟩
    · have := h.index e (List.mem_filter.mp he').1
      have := abs_nonneg e.1.2
      omega
    · obtain ⟨e'', he'', rfl⟩ := List.mem_map.mp hm
      have := h2 e'' he''
      omega

/-- **C82**, the coefficients at arrays of times and magnetic times: the degree is the largest asked for, and at each index
there is the table of the values of the series at the time and the magnetic time, and zeros.
What is missing: times which are not finite; wave numbers as in C29. -/
theorem C82_table_partial (c : MioCoef ℝ) (opt : Options ℝ) (N : Nat) (h : CallableMio c opt N) :
    CallsAs c opt N (mioEntries c opt) := by
  intro alloc junk hj junkX hjX junk2 year time mt lead T M ht hm hl
  have hs : ∀ e ∈ c.entries.filter (fun e => Kept opt e.1), e.2.length = c.ns * c.np :=
    fun e he => h.size e (List.mem_filter.mp he).1
  obtain ⟨yf, y1, y2⟩ := timeArr_items (Time.mjd2kToYearFractionX year) junkX hjX time lead _ ht hl
  have y3 : ItemsOf (⟨finMem yf.mem, yf.arr⟩ : NdArray ℝ) lead (fun idx => Time.mjd2kToYearFraction (T idx)) :=
    fin_items y2 (fun idx hi => rfl)
  obtain ⟨v, V, v1, v2, v3⟩ := C64_fourier2d_partial junk hj junk2 _ mt _ lead _ c.ns c.np _ M _ _ y3 hm
    (coeff_matrices c.ns c.np _ hs) c.smin c.pmin (2 * Real.pi) (2 * Real.pi / 24) h.degrees
  -- the tables
  have htab : ∀ i, ∃ t, Index lead i → (fillTable (N : Int)
      (((c.entries.filter (fun e => Kept opt e.1)).map Prod.fst).zip
        ((indices [(c.entries.filter (fun e => Kept opt e.1)).length]).map (fun j => V (i ++ j)))) = some t ∧
      Spec.TableOf N (mioEntries c opt (T i) (M i)) t) := by
    intro i
    by_cases hi : Index lead i
    swap
    · exact ⟨[], fun h => absurd h hi⟩
    have hz : ((c.entries.filter (fun e => Kept opt e.1)).map Prod.fst).zip
        ((indices [(c.entries.filter (fun e => Kept opt e.1)).length]).map (fun j => V (i ++ j))) =
        (c.entries.filter (fun e => Kept opt e.1)).map (fun e => (e.1, fourierSum
          (fun a b => (e.2.getD (a * c.np + b) (0, 0)).1) (fun a b => (e.2.getD (a * c.np + b) (0, 0)).2) c.ns c.np
          c.smin c.pmin (2 * Real.pi * Time.mjd2kToYearFraction (T i)) (2 * Real.pi / 24 * M i))) := by
      refine List.ext_getElem (by simp [indices]) (fun k k1 k2 => ?_)
      have hk : k < (c.entries.filter (fun e => Kept opt e.1)).length := by simpa using k2
      have hv := v3 i [k] hi (.cons hk .nil)
      simp only [List.getElem_zip, List.getElem_map]
      have hidx : (indices [(c.entries.filter (fun e => Kept opt e.1)).length])[k]'(by
          rw [indices_length]; simpa using hk) = [k] := by
        have hr := indices_rank (lead := [(c.entries.filter (fun e => Kept opt e.1)).length]) (idx := [k]) (.cons hk .nil)
        simp only [rank, List.prod_nil, mul_one, add_zero] at hr
        exact (List.getElem?_eq_some_iff.mp hr).2
      rw [hidx, hv]
      have hrow : ((c.entries.filter (fun e => Kept opt e.1)).map Prod.snd).getD (([k] : List Nat).headD 0) [] =
          ((c.entries.filter (fun e => Kept opt e.1))[k]).2 := by
        rw [List.getD_eq_getElem?_getD]
        simp [hk]
      simp only [hrow]
    have hfst : ((c.entries.filter (fun e => Kept opt e.1)).map (fun e => (e.1, fourierSum
          (fun a b => (e.2.getD (a * c.np + b) (0, 0)).1) (fun a b => (e.2.getD (a * c.np + b) (0, 0)).2) c.ns c.np
          c.smin c.pmin (2 * Real.pi * Time.mjd2kToYearFraction (T i)) (2 * Real.pi / 24 * M i)))).map Prod.fst =
        (c.entries.map Prod.fst).filter (Kept opt) := by
      rw [List.map_map, List.filter_map]; rfl
    obtain ⟨t, t1, t2, t3, t4⟩ := C10_dense (N : Int) ((c.entries.filter (fun e => Kept opt e.1)).map (fun e => (e.1, fourierSum
          (fun a b => (e.2.getD (a * c.np + b) (0, 0)).1) (fun a b => (e.2.getD (a * c.np + b) (0, 0)).2) c.ns c.np
          c.smin c.pmin (2 * Real.pi * Time.mjd2kToYearFraction (T i)) (2 * Real.pi / 24 * M i))))
      (by
        intro e he
        obtain ⟨e', he', rfl⟩ := List.mem_map.mp he
        refine ⟨h.index e' (List.mem_filter.mp he').1, h.degree.1 _ ?_⟩
        rw [← hfst, List.map_map]
        exact List.mem_map.mpr ⟨e', he', rfl⟩)
      (by rw [hfst]; exact h.nodup.filter _)
    refine ⟨t, fun _ => ⟨by rw [hz]; exact t1, ?_, ?_, ?_⟩⟩
    · have := t2 (by omega)
      have e : ((N : Int) + 1) * ((N : Int) + 2) / 2 = (((N + 1) * (N + 2) / 2 : Nat) : Int) := by push_cast; rfl
      rw [e] at this
      exact_mod_cast this
    · intro e he
      obtain ⟨e', he', rfl⟩ := List.mem_map.mp he
      exact t3 _ _ _ (List.mem_map.mpr ⟨e', he', rfl⟩)
    · intro r b hrb
      refine t4 r b (fun n m v hv => ?_)
      obtain ⟨e', he', heq⟩ := List.mem_map.mp hv
      have h1 := congrArg Prod.fst heq
      simp only at h1
      have h2 := hrb (e'.1, fun v => v = fourierSum (fun a b => (e'.2.getD (a * c.np + b) (0, 0)).1)
        (fun a b => (e'.2.getD (a * c.np + b) (0, 0)).2) c.ns c.np c.smin c.pmin
        (2 * Real.pi * Time.mjd2kToYearFraction (T i)) (2 * Real.pi / 24 * M i)) (List.mem_map.mpr ⟨e', he', rfl⟩)
      rintro ⟨q1, q2⟩
      refine h2 ⟨?_, ?_⟩
      · simp only [h1, coefRow]
        omega
      · simp only [h1]
        exact q2
  choose tab htab using htab
  have hlen : ∀ i, Index lead i → (tab i).length = (N + 1) * (N + 2) / 2 := fun i hi => (htab i hi).2.len
  have hblk : ∀ b ∈ (indices lead).map (fun i => flatPairs (tab i)), b.length = (N + 1) * (N + 2) / 2 * 2 := by
    intro b hb
    obtain ⟨i, hi, rfl⟩ := List.mem_map.mp hb
    rw [pairsFlat_length, hlen i (mem_indices.mp hi)]
  have hbuf : ((indices lead).map tab).flatMap flatPairs = ((indices lead).map (fun i => flatPairs (tab i))).flatten := by
    rw [List.flatMap_def, List.map_map]; rfl
  have hsize : (coeffSize (N : Int)).toNat = (N + 1) * (N + 2) / 2 := by
    have : coeffSize (N : Int) = (((N + 1) * (N + 2) / 2 : Nat) : Int) := by
      unfold coeffSize
      push_cast
      rw [mul_comm]
    omega
  refine ⟨newArray (lead ++ [(N + 1) * (N + 2) / 2, 2]) (((indices lead).map tab).flatMap flatPairs), _, ?_,
    new_items 0 _ _ ?_, ?_⟩
  · unfold callMio
    have y1' : mjd2000ToYearFractionArr (mioEnv alloc junk junkX junk2 year).year (mioEnv alloc junk junkX junk2 year).junkX
      time = .ok yf := y1
    have v1' : fourier2dArr libm.cos libm.sin (mioEnv alloc junk junkX junk2 year).junk
      (mioEnv alloc junk junkX junk2 year).junk2 ⟨finMem yf.mem, yf.arr⟩ mt
      (coeffArray c.ns c.np (c.entries.filter (fun e => Kept opt e.1))) c.smin c.pmin (2 * libm.pi) (2 * libm.pi / 24) = .ok v := v1
    have hrows := rows_flat lead [(c.entries.filter (fun e => Kept opt e.1)).length] V
    simp only [List.prod_cons, List.prod_nil, mul_one] at hrows
    have hmap : ((indices lead).map (fun i => (indices [(c.entries.filter (fun e => Kept opt e.1)).length]).map
        (fun j => V (i ++ j)))).mapM (fun r => fillTable (N : Int)
          (((c.entries.filter (fun e => Kept opt e.1)).map Prod.fst).zip r)) = some ((indices lead).map tab) := by
      rw [List.mapM_map]
      exact mapM_all _ _ _ (fun i hi => (htab i (mem_indices.mp hi)).1)
    simp only [h.sub, h.max, y1', v1', called_ok, except_ok_bind, nd_items v2, ht.dim, hrows, hmap, orIndexError, hsize]
    rfl
  · rw [hbuf, flatten_length _ _ hblk, List.length_map, indices_length]
    simp [List.prod_append]
  · intro i hi
    refine ⟨tab i, (htab i hi).2, fun r hr => ?_⟩
    have key : ∀ b < 2, (((indices lead).map tab).flatMap flatPairs).getD
        (rank (lead ++ [(N + 1) * (N + 2) / 2, 2]) (i ++ [r, b])) 0 = (flatPairs (tab i)).getD (r * 2 + b) 0 := by
      intro b hb'
      have hrk : rank (lead ++ [(N + 1) * (N + 2) / 2, 2]) (i ++ [r, b]) =
          rank lead i * ((N + 1) * (N + 2) / 2 * 2) + (r * 2 + b) := by
        have e1 := rank_append 2 (lead := lead ++ [(N + 1) * (N + 2) / 2]) (idx := i ++ [r]) b
          (List.rel_append hi (.cons hr .nil))
        rw [rank_append _ r hi] at e1
        simp only [List.append_assoc, List.cons_append, List.nil_append] at e1
        rw [e1]
        ring
      rw [hrk, hbuf, List.getD_eq_getElem?_getD, flatten_get _ _ _ _ hblk (by omega), List.getElem?_map, indices_rank hi,
        Option.map_some, Option.bind_some, List.getD_eq_getElem?_getD]
    have hp := pairsFlat_get (tab i) r
    have hg : (tab i)[r]? = some ((tab i)[r]'(by rw [hlen i hi]; exact hr)) := List.getElem?_eq_getElem _
    rw [hg] at hp
    refine ⟨?_, ?_⟩
    · show List.getD _ _ _ = _
      rw [key 0 (by omega), List.getD_eq_getElem?_getD, Nat.add_zero, hp.1]
      simp [cell, hlen i hi, hr]
    · show List.getD _ _ _ = _
      rw [key 1 (by omega), List.getD_eq_getElem?_getD, hp.2]
      simp [cell, hlen i hi, hr]

/-- **C82**, magnetic times of another shape than the times are refused with `ValueError`. -/
theorem C82_rejects (c : MioCoef ℝ) (junkX : Nat → List (X ℝ)) (hjX : ∀ n, (junkX n).length = n) (alloc : Nat → Mem ℝ)
    (junk : Nat → List ℝ) (junk2 : Nat → ℝ × ℝ) (year : Int) (time : NdArray (X ℝ)) (mt : NdArray ℝ) (lead : List Nat)
    (T : List Nat → ℝ) (ht : ItemsOf time lead (fun i => .fin (T i))) (hm : mt.arr.dim ≠ lead) (lo hi : Int) :
    callMio libm (mioEnv alloc junk junkX junk2 year) c time mt lo hi = .error (.call .valueError) := by
  unfold callMio
  by_cases hl : lead.length ≤ 15
  · obtain ⟨yf, y1, y2⟩ := timeArr_items (Time.mjd2kToYearFractionX year) junkX hjX time lead _ ht hl
    have y1' : mjd2000ToYearFractionArr (mioEnv alloc junk junkX junk2 year).year (mioEnv alloc junk junkX junk2 year).junkX
      time = .ok yf := y1
    simp only [y1', called_ok, except_ok_bind]
    rw [C64_fourier2d_rejects _ _ _ _ _ _ _ _ _ _ _ (.inl (by
      show yf.arr.dim ≠ _
      rw [y2.dim]
      exact hm.symm))]
    rfl
  · have y1' : mjd2000ToYearFractionArr (mioEnv alloc junk junkX junk2 year).year (mioEnv alloc junk junkX junk2 year).junkX
      time = .error .valueError := ((C64_time year junkX hjX time lead _ ht).2 (by omega)).2.2
    rw [y1']
    rfl

/-! ### Coefficients loaded from files -/

/-- The degrees asked for, and the wave numbers as in C29. -/
structure Readable (c : MioWritten) (opt : Options ℝ) (N : Nat) : Prop where
  degrees : c.pmin.natAbs ≤ 1 ∨ c.pmin.natAbs ≤ c.smin.natAbs ∨ c.pmin.natAbs ≤ c.smax.natAbs ∨
    c.pmin.natAbs ≤ c.pmax.natAbs
  degree : MaxDegree (c.nm.filter (Kept opt)) N

theorem held_calls {pf : List Char → Option ℝ} {file : List Line} {c : MioWritten} (h : MioFile pf file c)
    {rows : List (List ℝ)} (hr : rows.length = c.nm.length) {factor : Int → ℝ} {as : List ((Int × Int) × List (ℝ × ℝ))}
    (has : List.Forall₂ (RowHolds c factor) as (c.nm.zip rows)) (int : Bool) (opt : Options ℝ) (N : Nat)
    (hask : Readable c opt N) : CallsAs (setOfRows c as int) opt N (writtenEntries c rows factor opt) := by
  have hfst := held_fst hr has
  have hc : CallableMio (setOfRows c as int) opt N := by
    refine ⟨?_, ?_, ?_, ?_, ?_, ?_⟩
    · rintro (h0 : as = [])
      rw [h0] at hfst
      exact h.nonempty hfst.symm
    · intro e he
      obtain ⟨k, hk, rfl⟩ := List.mem_iff_getElem.mp he
      exact ((List.forall₂_iff_get.mp has).2 k hk (by rw [← has.length_eq]; exact hk)).2.1
    · intro e he
      exact h.index _ (by rw [← hfst]; exact List.mem_map_of_mem he)
    · show (as.map Prod.fst).Nodup
      rw [hfst]
      exact h.nodup
    · have h1 := h.diurnal
      have h2 := h.seasonal
      have e1 : c.smin + ((c.smax - c.smin + 1).toNat : Int) - 1 = c.smax := by omega
      have e2 : c.pmin + ((c.pmax - c.pmin + 1).toNat : Int) - 1 = c.pmax := by omega
      show c.pmin.natAbs ≤ 1 ∨ _ ≤ _ ∨ _ ≤ (c.smin + ((c.smax - c.smin + 1).toNat : Int) - 1).natAbs ∨
        _ ≤ (c.pmin + ((c.pmax - c.pmin + 1).toNat : Int) - 1).natAbs
      rw [e1, e2]
      exact hask.degrees
    · show MaxDegree ((as.map Prod.fst).filter (Kept opt)) N
      rw [hfst]
      exact hask.degree
  have he : mioEntries (setOfRows c as int) opt = writtenEntries c rows factor opt := by
    funext t mt
    exact rows_entries opt t mt has
  rw [← he]
  exact C82_table_partial _ opt N hc

/-- **C82**, the coefficients loaded by `load_coeff_swarm_mio_internal` of any MIO file: the values of the second half of the
rows, for sources inside, valid at all times.
What is missing: as for `C82_table_partial`. -/
theorem C82_internal_partial {pf : List Char → Option ℝ} {file : List Line} {c : MioWritten} (h : MioFile pf file c) :
    ∃ coef d, loadCoeffInternal pf file = some (coef, d) ∧ parseMio pf file = some d ∧ coef.isInternal = true ∧
      coef.vs = .ninf ∧ coef.ve = .pinf ∧ coef.entries.map Prod.fst = c.nm ∧
      ∀ opt N, Readable c opt N → CallsAs coef opt N (writtenEntries c c.gh (fun _ => 1) opt) := by
  obtain ⟨lon, hlon, hp⟩ := C53_parse pf file _ _ _ _ _ _ _ _ _ _ c.nm c.qs c.gh h.nonempty h.external h.internal h.text h.size
  have hr := plain_rows h c.gh h.internal (fun r hr => List.mem_append_right _ hr)
  refine ⟨setOfRows c (c.nm.zip (c.gh.map inPairs)) true, _, ?_, hp, rfl, rfl, rfl, held_fst h.internal hr,
    fun opt N hask => held_calls h h.internal hr true opt N hask⟩
  unfold loadCoeffInternal
  simp only [hp, Option.bind_eq_bind, Option.bind_some, newMioCoef_ok h _ (show (c.gh.map inPairs).length = _ by
    simp [h.internal])]
  rfl

/-- **C82**, the coefficients loaded by `load_coeff_swarm_mio_external` of any MIO file: below the ionosphere the values of
the first half of the rows, for sources outside; above it the converted values, for sources inside.
What is missing: as for `C82_table_partial`. -/
theorem C82_external_partial {pf : List Char → Option ℝ} {file : List Line} {c : MioWritten} (h : MioFile pf file c)
    (above : Bool) :
    ∃ coef d, loadCoeffExternal pf file above = some (coef, d) ∧ parseMio pf file = some d ∧ coef.isInternal = above ∧
      coef.vs = .ninf ∧ coef.ve = .pinf ∧ coef.entries.map Prod.fst = c.nm ∧
      ∀ opt N, Readable c opt N →
        CallsAs coef opt N (writtenEntries c c.qs (if above then shellFactor c.height else fun _ => 1) opt) := by
  obtain ⟨lon, hlon, hp⟩ := C53_parse pf file _ _ _ _ _ _ _ _ _ _ c.nm c.qs c.gh h.nonempty h.external h.internal h.text h.size
  obtain ⟨as, a1, a2⟩ := external_ok h (lon := lon) above
  refine ⟨setOfRows c as above, _, ?_, hp, rfl, rfl, rfl, held_fst h.external a2,
    fun opt N hask => held_calls h h.external a2 above opt N hask⟩
  unfold loadCoeffExternal
  simp only [hp, Option.bind_eq_bind, Option.bind_some, a1]
  rfl

/-- The sample file of C81 satisfies the hypotheses; all degrees, and no degree. -/
example : MioFile pfWhole sampleMio sampleWritten ∧ Readable sampleWritten ⟨-1, -1, .default⟩ 1 ∧
    Readable sampleWritten ⟨5, -1, .default⟩ 0 :=
  ⟨sampleMio_file, ⟨.inl (by simp [sampleWritten]), by simp [sampleWritten, MaxDegree, Kept]⟩,
    ⟨.inl (by simp [sampleWritten]), by simp [sampleWritten, MaxDegree, Kept]⟩⟩

/-- Two coefficients with the wave number 0 and one in a row, as an array. -/
example : (coeffArray 1 2 [((1, 0), [((3 : ℚ), 4), (5, 6)]), ((1, -1), [(7, 8), (9, 0)])]).mem 5 = some 8 := by
  decide +kernel

end Verif.Props
