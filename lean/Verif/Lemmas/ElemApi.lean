/-
Lemmas on the array functions applied item by item.
-/
import Verif.Model.ElemApi
import Verif.Lemmas.SeriesApi
import Verif.Spec.Items

set_option linter.unusedSectionVars false

namespace Verif.Arr

open Verif.Buf Verif.Spec

variable {A B : Type}

/-- Indices of an array with the dimensions of two others. -/
theorem indices_append (core : List Nat) : ∀ lead : List Nat,
    indices (lead ++ core) = (indices lead).flatMap (fun i => (indices core).map (fun j => i ++ j))
  | [] => by simp [indices]
  | n :: d => by
    rw [List.cons_append, indices, indices_append core d, indices, List.flatMap_assoc]
    congr 1
    funext i
    rw [List.map_flatMap, List.flatMap_map]
    congr 1
    funext j
    rw [List.map_map]
    rfl

theorem wrList_one (buf : List A) (p : Int) (v : A) : wrList buf p [v] = wrI buf p v := by
  simp only [wrList, Option.bind_eq_bind]
  cases wrI buf p v <;> rfl

/-- Single writes at consecutive addresses. -/
theorem fold_wrI {α : Type} (f : α → Option A) (ad : α → Int) : ∀ (l : List α) (p : Int) (buf : List A),
    l.map ad = (List.range l.length).map (fun k : Nat => p + k) →
    l.foldlM (fun buf a => (f a).bind (fun v => wrI buf (ad a) v)) buf =
      (l.mapM f).bind (fun vs => wrList buf p vs)
  | [], p, buf, _ => rfl
  | a :: l, p, buf, h => by
    simp only [List.length_cons, List.range_succ_eq_map, List.map_cons, List.map_map, List.cons.injEq] at h
    obtain ⟨h1, h2⟩ := h
    have h1 : ad a = p := by simpa using h1
    have h3 : l.map ad = (List.range l.length).map (fun k : Nat => (p + 1) + k) := by
      rw [h2]
      congr 1
      funext k
      simp
      ring
    rw [List.foldlM_cons, List.mapM_cons, h1]
    cases f a with
    | none => rfl
    | some v =>
      simp only [Option.bind_some, Option.bind_eq_bind]
      cases hw : wrI buf p v with
      | none =>
        cases l.mapM f with
        | none => rfl
        | some vs => simp [wrList, hw]
      | some b =>
        simp only [Option.bind_some]
        rw [fold_wrI f ad l (p + 1) b h3]
        cases l.mapM f with
        | none => rfl
        | some vs => simp [wrList, hw]

/-- The addresses of the items of a contiguous block. -/
theorem addr_block (core : List Nat) (p : Int) :
    (indices core).map (fun idx => (sub ⟨p, core, cstrides core⟩ idx).data) =
      (List.range (indices core).length).map (fun k : Nat => p + k) := by
  have := addr_new_nil core
  simp only [sub, contiguous, zero_add] at this ⊢
  have h2 := congrArg (List.map (fun z => p + z)) this
  rw [List.map_map, List.map_map] at h2
  simpa [Function.comp_def] using h2

theorem fits_block (core : List Nat) (p : Int) : Fits core none ⟨p, core, cstrides core⟩ :=
  ⟨by simp [cstrides_length], List.prefix_rfl⟩

/-- A block of a new array. -/
theorem sub_block {lead : List Nat} (core : List Nat) {idx : List Nat} (h : idx ∈ indices lead) :
    sub (contiguous (lead ++ core)) idx =
      ⟨(sub (contiguous (lead ++ core)) idx).data, core, cstrides core⟩ := by
  have hl := (indices_valid h).length_eq
  have : ∀ lead : List Nat, (cstrides (lead ++ core)).drop lead.length = cstrides core := by
    intro lead
    induction lead with
    | nil => rfl
    | cons n d ih => simpa [cstrides] using ih
  simp [sub, contiguous, hl, this]

/-- A state which keeps an invariant, and blocks written one after the other. -/
theorem fold_state {α S : Type} (Inv : S → Prop) (step : S × List A → α → Option (S × List A))
    (F : α → List A) (ad : α → Int) : ∀ (l : List α),
    (∀ a ∈ l, ∀ s buf, Inv s → ∃ s', Inv s' ∧
      step (s, buf) a = (wrList buf (ad a) (F a)).map (fun b => (s', b))) →
    ∀ s buf r, Inv s → l.foldlM (fun b a => wrList b (ad a) (F a)) buf = some r →
      ∃ s', l.foldlM step (s, buf) = some (s', r)
  | [], _, s, buf, r, _, h => ⟨s, by rw [← Option.some.inj h]; rfl⟩
  | a :: l, hs, s, buf, r, hi, h => by
    obtain ⟨s', h1, h2⟩ := hs a (by simp) s buf hi
    rw [List.foldlM_cons] at h ⊢
    rw [h2]
    simp only [Option.bind_eq_bind, Option.bind_eq_some_iff] at h
    obtain ⟨b, h3, h4⟩ := h
    rw [h3]
    exact fold_state Inv step F ad l (fun a ha => hs a (by simp [ha])) s' b r h1 h4

/-- Blocks written to a new array. -/
theorem fold_blocks (lead core : List Nat) (F : List Nat → List A) (hF : ∀ i, (F i).length = core.prod)
    (buf : List A) (hb : buf.length = (lead ++ core).prod) :
    (indices lead).foldlM (fun b idx => wrList b (sub (contiguous (lead ++ core)) idx).data (F idx)) buf =
      some ((indices lead).map F).flatten := by
  have := fold_mapM core.prod (fun idx => some (F idx))
    (fun idx => (sub (contiguous (lead ++ core)) idx).data)
    (by intro idx v h; rw [← Option.some.inj h]; exact hF _) (addr_new lead core) buf
    (by rw [hb, List.prod_append])
  rw [mapM_some_map] at this
  exact this

/-- Blocks of blocks are the items in order. -/
theorem flatten_blocks (lead core : List Nat) (F : List Nat → List Nat → A) :
    ((indices lead).map (fun i => (indices core).map (F i))).flatten =
      (indices (lead ++ core)).map (fun idx => F (idx.take lead.length) (idx.drop lead.length)) := by
  rw [indices_append, List.map_flatMap, List.flatten_eq_flatMap, List.flatMap_map]
  refine List.flatMap_congr (fun i hi => ?_)
  rw [List.map_map]
  refine List.map_congr_left (fun j _ => ?_)
  have hl := (indices_valid hi).length_eq
  simp [← hl]

theorem mapM_all {α β : Type} (f : α → Option β) (g : α → β) : ∀ l : List α, (∀ a ∈ l, f a = some (g a)) →
    l.mapM f = some (l.map g)
  | [], _ => rfl
  | a :: l, h => by
    rw [List.mapM_cons, h a (by simp), mapM_all f g l (fun a ha => h a (by simp [ha]))]
    rfl

theorem index_prefix {p lead idx : List Nat} (hp : p <+: lead) (h : Index lead idx) :
    Index p (idx.take p.length) := by
  obtain ⟨q, rfl⟩ := hp
  have := List.forall₂_take p.length h
  rwa [List.take_left] at this

theorem items_read {a : NdArray A} {la lead : List Nat} {S : List Nat → A} (ha : ItemsOf a la S)
    (hp : la <+: lead) {idx : List Nat} (h : Index lead idx) :
    a.mem (at' (some 0) a.arr idx).data = some (S (idx.take la.length)) := by
  rw [← ha.get _ (index_prefix hp h)]
  simp only [at', sub, elem, ← offset_eq, Nat.sub_zero, ha.dim]

theorem items_fits0 {a : NdArray A} {la lead : List Nat} {S : List Nat → A} (ha : ItemsOf a la S)
    (hp : la <+: lead) : Fits lead (some 0) a.arr :=
  ⟨ha.ndim, .inl ⟨la, [], by rw [ha.dim]; simp, rfl, hp⟩⟩

theorem items_fitsN {a : NdArray A} {lead : List Nat} {S : List Nat → A} (ha : ItemsOf a lead S) :
    Fits lead none a.arr := ⟨ha.ndim, by rw [ha.dim]⟩

theorem items_read_none {a : NdArray A} {lead : List Nat} {S : List Nat → A} (ha : ItemsOf a lead S)
    {idx : List Nat} (h : idx ∈ indices lead) : a.mem (sub a.arr idx).data = some (S idx) := by
  rw [← ha.get _ (mem_indices.mp h)]
  simp only [sub, elem, ← offset_eq]

/-- The items of a new array. -/
theorem items_new {dims : List Nat} (F : List Nat → A) : ItemsOf (newArray dims ((indices dims).map F)) dims F := by
  refine ⟨rfl, by simp [newArray, contiguous, cstrides_length], fun idx h => ?_⟩
  unfold elem newArray contiguous
  simp only
  rw [← offset_eq, ← rank_eq h, zero_add]
  unfold rdI rd
  rw [if_pos (by omega), Int.toNat_natCast, List.getElem?_map, indices_rank h]
  rfl

/-- Item by item. -/
theorem mapRec_eq (g : Option Nat) (hg : g = none ∨ g = some 0) {f : A → Option B} {a : NdArray A}
    {lead : List Nat} {S : List Nat → A} (ha : ItemsOf a lead S) (F : A → B)
    (hf : ∀ idx, Index lead idx → f (S idx) = some (F (S idx))) (buf : List B) (hb : buf.length = lead.prod) :
    mapRec g f a.mem lead [a.arr, contiguous lead] buf =
      some ((indices lead).map (fun idx => F (S idx))) := by
  have hfit : List.Forall₂ (Fits lead) [g, g] [a.arr, contiguous lead] := by
    rcases hg with rfl | rfl
    · exact .cons (items_fitsN ha) (.cons (fits_new_nil lead) .nil)
    · exact .cons (items_fits0 ha List.prefix_rfl)
        (.cons ⟨by simp [contiguous, cstrides_length], .inl ⟨lead, [], by simp [contiguous], rfl, List.prefix_rfl⟩⟩
          .nil)
  have h := walk_eq [g, g] (fun arrs buf => match arrs with
    | [x, out] => do
      let v ← a.mem x.data
      let r ← f v
      wrI buf out.data r
    | _ => none) [] lead [a.arr, contiguous lead] buf hfit
  rw [List.append_nil] at h
  refine h.trans ?_
  rw [foldlM_congr_mem (g := fun buf idx => (some (F (S idx))).bind (fun v =>
    wrI buf (sub (contiguous lead) idx).data v))]
  · rw [fold_wrI (fun idx => some (F (S idx))) (fun idx => (sub (contiguous lead) idx).data) _ 0 buf
      (addr_block lead 0), mapM_some_map]
    simp only [Option.bind_some]
    have := wrList_append [] buf [] ((indices lead).map (fun idx => F (S idx)))
      (by rw [hb, List.length_map, indices_length])
    simpa using this
  · intro idx hi s
    have hi' := mem_indices.mp hi
    have e1 : a.mem (at' g a.arr idx).data = some (S idx) := by
      rcases hg with rfl | rfl
      · exact items_read_none ha hi
      · rw [items_read ha List.prefix_rfl hi', List.take_of_length_le (by rw [hi'.length_eq])]
    have e2 : at' g (contiguous lead) idx = sub (contiguous lead) idx := by
      rcases hg with rfl | rfl
      · rfl
      · simp only [at', contiguous, Nat.sub_zero]
        rw [List.take_of_length_le (by rw [hi'.length_eq])]
    simp only [List.zipWith_cons_cons, List.zipWith_nil_left, e1, e2, Option.bind_eq_bind, Option.bind_some,
      hf idx hi']

theorem offset_split : ∀ (idx : List Nat) (s : List Int) (k t), idx.length = s.length →
    offset (idx ++ k) (s ++ t) = offset idx s + offset k t
  | [], [], k, t, _ => by simp [offset_nil]
  | i :: idx, a :: s, k, t, h => by
    simp only [List.cons_append, offset, offset_split idx s k t (by simpa using h)]
    ring

theorem readN_of {mem : Int → Option A} {p : Int} {l : List A}
    (h : ∀ k (hk : k < l.length), mem (p + k) = some l[k]) : readN mem p l.length = some l := by
  unfold readN
  obtain ⟨r, hr⟩ := mapM_isSome (l := List.range l.length) (f := fun k : Nat => mem (p + k))
    (fun k hk => ⟨_, h k (List.mem_range.mp hk)⟩)
  refine hr.trans (congrArg some (List.ext_getElem? fun k => ?_))
  have hg := mapM_get hr k
  by_cases hk : k < l.length
  · rw [List.getElem?_range hk] at hg
    simp only [Option.bind_some, h k hk] at hg
    rw [← hg, List.getElem?_eq_getElem hk]
  · rw [List.getElem?_eq_none (by rw [mapM_length hr, List.length_range]; omega),
      List.getElem?_eq_none (by omega)]

/-- A leaf of an array of series. -/
theorem series_read {c : NdArray A} {core : List Nat} {n : Nat} {R : List Nat → List A}
    (hc : SeriesOf c core n R) {idx : List Nat} (hi : Index core idx) :
    (sub c.arr idx).dim = [n] ∧ readN c.mem (sub c.arr idx).data n = some (R idx) := by
  obtain ⟨s, hs, hsl⟩ := hc.stride
  have hl : idx.length = core.length := hi.length_eq
  have hdata : (sub c.arr idx).data = c.arr.data + offset idx s := by
    simp only [sub]
    rw [hs]
    have := offset_split idx s [] [1] (by omega)
    simp only [List.append_nil, offset_nil, add_zero] at this
    rw [this]
  refine ⟨by simp only [sub, hc.dim, hl, List.drop_left], ?_⟩
  have hlen := hc.len _ hi
  rw [hdata]
  unfold readN
  rw [← hlen]
  refine readN_of (fun k hk => ?_)
  have g1 := hc.get _ hi k _ (List.getElem?_eq_getElem hk)
  unfold elem at g1
  rw [← offset_eq, hs, offset_split _ _ _ _ (by omega)] at g1
  simp only [offset, add_zero, mul_one] at g1
  rw [← g1]
  congr 1
  ring

/-- A leaf of an array of matrices. -/
theorem matrix_read {c : NdArray A} {core : List Nat} {n1 n2 : Nat} {P Q : List Nat → Nat → Nat → A}
    (hc : MatricesOf c core n1 n2 P Q) {idx : List Nat} (hi : Index core idx) :
    (sub c.arr idx).dim = [n1, n2, 2] ∧ readPairs c.mem (sub c.arr idx).data (n1 * n2) =
      some ((List.range (n1 * n2)).map (fun k => (P idx (k / n2) (k % n2), Q idx (k / n2) (k % n2)))) := by
  obtain ⟨s, hs, hsl⟩ := hc.stride
  have hl : idx.length = core.length := hi.length_eq
  have hdata : (sub c.arr idx).data = c.arr.data + offset idx s := by
    simp only [sub]
    rw [hs]
    have := offset_split idx s [] [(n2 : Int) * 2, 2, 1] (by omega)
    simp only [List.append_nil, offset_nil, add_zero] at this
    rw [this]
  refine ⟨by simp only [sub, hc.dim, hl, List.drop_left], ?_⟩
  rw [hdata]
  unfold readPairs
  refine mapM_all _ _ _ (fun k hk => ?_)
  have hk := List.mem_range.mp hk
  have hn : 0 < n2 := Nat.pos_of_ne_zero (fun h => by simp [h] at hk)
  have h1 : k / n2 < n1 := (Nat.div_lt_iff_lt_mul hn).mpr hk
  have h2 : k % n2 < n2 := Nat.mod_lt _ hn
  have hd : (k : Int) = (k / n2 : Nat) * (n2 : Int) + (k % n2 : Nat) := by
    exact_mod_cast (Nat.div_add_mod' k n2).symm
  obtain ⟨g1, g2⟩ := hc.get _ hi _ h1 _ h2
  unfold elem at g1 g2
  rw [← offset_eq, hs, offset_split _ _ _ _ (by omega)] at g1 g2
  simp only [offset, add_zero, mul_one] at g1 g2
  have e1 : c.mem (c.arr.data + offset idx s + 2 * (k : Int)) = some (P idx (k / n2) (k % n2)) := by
    rw [← g1, hd]
    congr 1
    push_cast
    ring
  have e2 : c.mem (c.arr.data + offset idx s + 2 * (k : Int) + 1) = some (Q idx (k / n2) (k % n2)) := by
    rw [← g2, hd]
    congr 1
    push_cast
    ring
  simp only [e1, e2, Option.bind_eq_bind, Option.bind_some]
  rfl

/-- The inner recursion: one item of the output for each leaf of the coefficients. -/
theorem inner_eq {core : List Nat} {p : Int} {c0 : ArrD} (hc : Fits core none c0)
    (leaf : List ArrD → List A → Option (List A)) (f : List Nat → Option A)
    (hl : ∀ idx ∈ indices core, ∀ buf, leaf [sub ⟨p, core, cstrides core⟩ idx, sub c0 idx] buf =
      (f idx).bind (fun v => wrI buf (sub ⟨p, core, cstrides core⟩ idx).data v)) (buf : List A) :
    walk [none, none] 0 leaf core [⟨p, core, cstrides core⟩, c0] buf =
      ((indices core).mapM f).bind (fun vs => wrList buf p vs) := by
  have h := walk_eq [none, none] leaf [] core [⟨p, core, cstrides core⟩, c0] buf
    (.cons (fits_block core p) (.cons hc .nil))
  rw [List.append_nil] at h
  refine h.trans ?_
  refine (foldlM_congr_mem (g := fun buf idx => (f idx).bind (fun v =>
    wrI buf (sub ⟨p, core, cstrides core⟩ idx).data v)) (fun idx hi s => hl idx hi s) buf).trans ?_
  exact fold_wrI f _ _ p buf (addr_block core p)

theorem fillValueRec_eq (core : List Nat) (p : Int) (v : A) (buf : List A) :
    fillValueRec v core [⟨p, core, cstrides core⟩] buf =
      wrList buf p ((indices core).map (fun _ => v)) := by
  have h := walk_eq [none] (fun arrs buf => match arrs with
    | [c] => wrI buf c.data v
    | _ => none) [] core [⟨p, core, cstrides core⟩] buf (.cons (fits_block core p) .nil)
  rw [List.append_nil] at h
  refine h.trans ?_
  refine (foldlM_congr_mem (g := fun buf idx => (some v).bind (fun v =>
    wrI buf (sub ⟨p, core, cstrides core⟩ idx).data v)) (fun idx hi s => rfl) buf).trans ?_
  rw [fold_wrI (fun _ => some v) _ _ p buf (addr_block core p), mapM_some_map (fun _ => v)]
  rfl

end Verif.Arr
