import Verif.Model.MioField
import Verif.Props.DipoleModel
import Verif.Props.FourierArraysTimed

/-!
# C79: MIO models on arrays
-/

set_option linter.unusedSectionVars false

namespace Verif.Props

open Verif.Geo Verif.Spec Verif.ShPoint Verif.FullEval Verif.Arr Verif.Buf Verif.Field Verif.Coeffs Verif.MioField
open Verif.ModelEval (pick put)

/-! ### Operations of NumPy -/

theorem nd_items {A : Type} {a : NdArray A} {d : List Nat} {S : List Nat → A} (h : ItemsOf a d S) :
    itemsNd a = .ok ((indices d).map S) := by
  unfold itemsNd
  rw [h.dim, readAll_eq a.mem d a.arr.stride a.arr.data S (by rw [h.ndim, h.dim]) h.get]
  rfl

theorem nd_map {A B : Type} (f : A → B) {a : NdArray A} {d : List Nat} {S : List Nat → A} (h : ItemsOf a d S) :
    ∃ y, mapNd f a = .ok y ∧ ItemsOf y d (fun idx => f (S idx)) := by
  refine ⟨newArray d ((indices d).map (fun idx => f (S idx))), ?_, items_new _⟩
  unfold mapNd
  simp only [nd_items h, except_ok_bind, h.dim, List.map_map]
  rfl

theorem indices_nodup (d : List Nat) : (indices d).Nodup := by
  have e := indices_offset [] d
  have : ((indices d).map (fun idx => offset idx (cstrides (d ++ [])))).Nodup := by
    rw [e]
    refine List.Nodup.map (fun a b hab => ?_) List.nodup_range
    simpa using hab
  exact this.of_map

theorem zip_map {A B C : Type} (f : A → B → C) (S : List Nat → A) (R : List Nat → B) : ∀ l : List (List Nat),
    List.zipWith f (l.map S) (l.map R) = l.map (fun i => f (S i) (R i))
  | [] => rfl
  | a :: l => by simp [zip_map f S R l]

theorem nd_zip {A B C : Type} (f : A → B → C) {a : NdArray A} {b : NdArray B} {da db d : List Nat} {S : List Nat → A}
    {R : List Nat → B} (ha : ItemsOf a da S) (hb : ItemsOf b db R) (h1 : da = [] ∨ da = d) (h2 : db = [] ∨ db = d)
    (hd : da = d ∨ db = d) :
    ∃ y, zipNd f a b = .ok y ∧ ItemsOf y d (fun idx => f (S (idx.take da.length)) (R (idx.take db.length))) := by
  have key : ∀ i ∈ indices d, i.take d.length = i := by
    intro i hi
    rw [← index_length (mem_indices.mp hi), List.take_length]
  refine ⟨newArray d ((indices d).map (fun idx => f (S (idx.take da.length)) (R (idx.take db.length)))), ?_, items_new _⟩
  unfold zipNd
  simp only [nd_items ha, nd_items hb, except_ok_bind, ha.dim, hb.dim]
  by_cases e : da = db
  · subst e
    have e : da = d := by simpa using hd
    subst e
    rw [if_pos rfl, zip_map]
    refine congrArg (fun l => Except.ok (newArray da l)) (List.map_congr_left fun i hi => ?_)
    rw [key i hi]
  · rw [if_neg e]
    by_cases e2 : db = []
    · subst e2
      have e : da = d := by
        rcases hd with h | h
        · exact h
        · subst h
          exact absurd (by simpa using h1) e
      subst e
      rw [if_pos rfl, show indices [] = [[]] from rfl]
      refine congrArg (fun l => Except.ok (newArray da l)) ?_
      simp only [List.map_cons, List.map_nil, List.length_nil, List.take_zero, List.flatMap_map]
      rw [List.flatMap_singleton' ((indices da).map _) |>.symm, List.flatMap_map]
      refine List.flatMap_congr fun i hi => ?_
      rw [key i hi]
    · rw [if_neg e2]
      have e3 : db = d := h2.resolve_left e2
      subst e3
      have e4 : da = [] := by
        rcases h1 with h | h
        · exact h
        · exact absurd h e
      subst e4
      rw [if_pos rfl, show indices [] = [[]] from rfl]
      refine congrArg (fun l => Except.ok (newArray db l)) ?_
      simp only [List.map_cons, List.map_nil, List.length_nil, List.take_zero, List.flatMap_map]
      rw [List.flatMap_singleton' ((indices db).map _) |>.symm, List.flatMap_map]
      refine List.flatMap_congr fun i hi => ?_
      rw [key i hi]

/-- The points picked by a mask. -/
def masked (b : List Nat → Bool) (md : List Nat) : List (List Nat) := pick ((indices md).map b) (indices md)

theorem masked_filter (b : List Nat → Bool) : ∀ l : List (List Nat), pick (l.map b) l = l.filter b
  | [] => rfl
  | a :: l => by
    have := masked_filter b l
    cases h : b a <;> simp [pick, h, this]

theorem masked_count (b : List Nat → Bool) (md : List Nat) : ((indices md).map b).count true = (masked b md).length := by
  unfold masked
  rw [masked_filter]
  induction indices md with
  | nil => rfl
  | cons a l ih => cases h : b a <;> simp [h, ih]

theorem masked_nodup (b : List Nat → Bool) (md : List Nat) : (masked b md).Nodup := by
  unfold masked
  rw [masked_filter]
  exact (indices_nodup md).filter _

theorem masked_mem (b : List Nat → Bool) (md : List Nat) {i : List Nat} (h : i ∈ masked b md) : Index md i ∧ b i = true := by
  unfold masked at h
  rw [masked_filter, List.mem_filter] at h
  exact ⟨mem_indices.mp h.1, h.2⟩

theorem rows_flat {A : Type} (md rest : List Nat) (S : List Nat → A) :
    rowsOf md.prod rest.prod ((indices (md ++ rest)).map S) =
      (indices md).map (fun i => (indices rest).map (fun j => S (i ++ j))) := by
  have h := rowsOf_flatten rest.prod ((indices md).map (fun i => (indices rest).map (fun j => S (i ++ j)))) (by
    intro r hr
    obtain ⟨i, -, rfl⟩ := List.mem_map.mp hr
    rw [List.length_map, indices_length])
  rw [List.length_map, indices_length] at h
  rw [indices_append, List.map_flatMap, List.flatMap_def]
  simpa [List.map_map, Function.comp_def] using h

theorem masked_flat {A : Type} (q : List (List Nat)) (rest : List Nat) (S : List Nat → A) :
    (q.map (fun i => (indices rest).map (fun j => S (i ++ j)))).flatten =
      (indices (q.length :: rest)).map (fun idx => S (q.getD (idx.headD 0) [] ++ idx.tail)) := by
  rw [indices, List.map_flatMap, List.flatMap_def]
  congr 1
  refine List.ext_getElem? (fun n => ?_)
  by_cases hn : n < q.length
  · simp [hn, List.map_map, Function.comp_def]
  · simp [hn]

/-- `a[mask]` -/
theorem nd_mask {A : Type} {a : NdArray A} {md rest : List Nat} {S : List Nat → A} (b : List Nat → Bool)
    (h : ItemsOf a (md ++ rest) S) :
    ∃ y, maskNd md ((indices md).map b) a = .ok y ∧ ItemsOf y ((masked b md).length :: rest)
      (fun idx => S ((masked b md).getD (idx.headD 0) [] ++ idx.tail)) := by
  refine ⟨newArray ((masked b md).length :: rest) ((indices ((masked b md).length :: rest)).map
    (fun idx => S ((masked b md).getD (idx.headD 0) [] ++ idx.tail))), ?_, items_new _⟩
  unfold maskNd
  rw [h.dim, List.take_left, if_pos rfl, List.drop_left, nd_items h]
  simp only [called_ok, except_ok_bind, rows_flat, masked_count]
  rw [pick_of_map, ← masked_flat]
  rfl

theorem maskNd_refused {A : Type} {a : NdArray A} {md : List Nat} (mask : List Bool) (h : ¬ md <+: a.arr.dim) :
    maskNd md mask a = .error (.shape .indexError) := by
  unfold maskNd
  rw [if_neg]
  intro e
  exact h (e ▸ List.take_prefix _ _)

theorem items_vectors {x : NdArray ℝ} {lead : List Nat} {S : List Nat → ℝ} (h : ItemsOf x (lead ++ [3]) S) :
    VectorsOf x lead (fun idx => ⟨S (idx ++ [0]), S (idx ++ [1]), S (idx ++ [2])⟩) := by
  have key : ∀ idx, Index lead idx → ∀ k < 3, Index (lead ++ [3]) (idx ++ [k]) := by
    intro idx hi k hk
    exact List.rel_append hi (.cons hk .nil)
  exact ⟨h.dim, h.ndim, fun idx hi => ⟨h.get _ (key idx hi 0 (by omega)), h.get _ (key idx hi 1 (by omega)),
    h.get _ (key idx hi 2 (by omega))⟩⟩

theorem vectors_items {x : NdArray ℝ} {lead : List Nat} {P : List Nat → V3 ℝ} (hx : VectorsOf x lead P) :
    ItemsOf x (lead ++ [3]) (fun j => ((xyz (P (j.take lead.length)))[j.getD lead.length 0]?).getD 0) := by
  refine ⟨hx.dim, hx.ndim, fun idx hidx => ?_⟩
  obtain ⟨a, b, hab⟩ : ∃ a b, idx = a ++ [b] := by
    have := index_length hidx
    simp only [List.length_append, List.length_singleton] at this
    have hne : idx ≠ [] := by
      intro he
      rw [he] at this
      simp at this
    exact ⟨idx.dropLast, idx.getLast hne, (List.dropLast_append_getLast hne).symm⟩
  subst hab
  have hl : a.length = lead.length := by
    have := index_length hidx
    simpa using this
  have ha : Index lead a := by
    have := index_take (List.prefix_append lead [3]) hidx
    rwa [← hl, List.take_left] at this
  have hb : b < 3 := by
    have := List.forall₂_drop lead.length hidx
    rw [← hl] at this
    simp only [List.drop_left] at this
    rw [hl] at this
    simp only [List.drop_left] at this
    cases this with
    | cons h _ => exact h
  obtain ⟨g0, g1, g2⟩ := hx.get a ha
  have e1 : List.take lead.length (a ++ [b]) = a := by rw [← hl, List.take_left]
  have e2 : (a ++ [b]).getD lead.length 0 = b := by rw [← hl]; simp
  rw [e1, e2]
  match b, hb with
  | 0, _ => exact g0
  | 1, _ => exact g1
  | 2, _ => exact g2

theorem vectors_congr {x : NdArray ℝ} {lead : List Nat} {P Q : List Nat → V3 ℝ} (h : VectorsOf x lead P)
    (e : ∀ idx, Index lead idx → P idx = Q idx) : VectorsOf x lead Q :=
  ⟨h.dim, h.ndim, fun idx hi => by rw [← e idx hi]; exact h.get idx hi⟩

theorem items_congr {A : Type} {x : NdArray A} {lead : List Nat} {P Q : List Nat → A} (h : ItemsOf x lead P)
    (e : ∀ idx, Index lead idx → P idx = Q idx) : ItemsOf x lead Q :=
  ⟨h.dim, h.ndim, fun idx hi => by rw [← e idx hi]; exact h.get idx hi⟩

/-- The index of the whole array of an index of the array picked. -/
def unmask (q : List (List Nat)) (idx : List Nat) : List Nat := q.getD (idx.headD 0) [] ++ idx.tail

theorem unmask_index {b : List Nat → Bool} {md rest idx : List Nat} (h : Index ((masked b md).length :: rest) idx) :
    Index (md ++ rest) (unmask (masked b md) idx) ∧ (unmask (masked b md) idx).take md.length ∈ masked b md ∧
      (unmask (masked b md) idx).length = md.length + rest.length := by
  match idx, h with
  | i :: j, .cons hi hj =>
    have hm : (masked b md)[i] ∈ masked b md := List.getElem_mem hi
    have hl := index_length (masked_mem b md hm).1
    have hjl := index_length hj
    refine ⟨?_, ?_, ?_⟩
    · have : unmask (masked b md) (i :: j) = (masked b md)[i] ++ j := by simp [unmask, hi]
      rw [this]
      exact List.rel_append (masked_mem b md hm).1 hj
    · have : unmask (masked b md) (i :: j) = (masked b md)[i] ++ j := by simp [unmask, hi]
      rw [this, ← hl, List.take_left]
      exact hm
    · simp [unmask, hi, hl, hjl]

/-- `a[mask, :]` of an array of vectors. -/
theorem nd_mask_vectors {x : NdArray ℝ} {md rest : List Nat} {P : List Nat → V3 ℝ} (b : List Nat → Bool)
    (hx : VectorsOf x (md ++ rest) P) :
    ∃ y, maskNd md ((indices md).map b) x = .ok y ∧ VectorsOf y ((masked b md).length :: rest)
      (fun idx => P (unmask (masked b md) idx)) := by
  have h := vectors_items hx
  rw [List.append_assoc] at h
  obtain ⟨y, h1, h2⟩ := nd_mask b h
  refine ⟨y, h1, vectors_congr (items_vectors (by rw [List.cons_append]; exact h2)) (fun idx hi => ?_)⟩
  have hl := (unmask_index hi).2.2
  have key : ∀ k, (masked b md).getD ((idx ++ [k]).headD 0) [] ++ (idx ++ [k]).tail = unmask (masked b md) idx ++ [k] := by
    intro k
    match idx, hi with
    | i :: j, .cons _ _ => simp [unmask]
  simp only [key]
  have e1 : ∀ k, List.take (md ++ rest).length (unmask (masked b md) idx ++ [k]) = unmask (masked b md) idx := by
    intro k
    rw [List.length_append, ← hl, List.take_left]
  have e2 : ∀ k, (unmask (masked b md) idx ++ [k]).getD (md ++ rest).length 0 = k := by
    intro k
    rw [List.length_append, ← hl]
    simp
  simp only [e1, e2]
  rfl


/-! ### Magnetic universal time -/

/-- An optional argument: `F idx` is its item at the index, `none` for `None`; the array has the dimensions `lead`
or none. -/
def OptItems {A : Type} (a : Option (NdArray A)) (lead : List Nat) (F : List Nat → Option A) : Prop :=
  match a with
  | none => ∀ idx, Index lead idx → F idx = none
  | some a => ∃ la S, (la = [] ∨ la = lead) ∧ ItemsOf a la S ∧ ∀ idx, Index lead idx → F idx = some (S (idx.take la.length))

theorem nd_subset {A : Type} {a : Option (NdArray A)} {md rest : List Nat} {F : List Nat → Option A}
    (b : List Nat → Bool) (h : OptItems a (md ++ rest) F) :
    ∃ y, subset md ((indices md).map b) a = .ok y ∧
      OptItems y ((masked b md).length :: rest) (fun idx => F (unmask (masked b md) idx)) := by
  match a, h with
  | none, h => exact ⟨none, rfl, fun idx hi => h _ (unmask_index hi).1⟩
  | some a, h =>
    obtain ⟨la, S, hla, h1, h2⟩ := h
    unfold subset
    simp only [h1.dim]
    by_cases h0 : la = []
    · subst h0
      refine ⟨some a, rfl, [], S, .inl rfl, h1, fun idx hi => ?_⟩
      show F _ = _
      rw [h2 _ (unmask_index hi).1]
      simp
    · have hla := hla.resolve_left h0
      subst hla
      obtain ⟨y, y1, y2⟩ := nd_mask b h1
      refine ⟨some y, ?_, _, _, .inr rfl, y2, fun idx hi => ?_⟩
      · rw [if_pos (List.length_pos_iff.mpr h0), y1]
        rfl
      · show F _ = _
        rw [h2 _ (unmask_index hi).1]
        have := (unmask_index hi).2.2
        rw [List.length_append, ← this, List.take_length, ← index_length hi, List.take_length]
        rfl

/-- The declination and the hour angle of the Sun. -/
noncomputable def sunOf (t : ℝ) : ℝ × ℝ :=
  ((Sun.sunpos libm Real.tan t 0 0 0 0).decl, (Sun.sunpos libm Real.tan t 0 0 0 0).hang)

theorem pointsArr_ndim {A : Type} {f : List A → Option (List A)} {junk : Nat → List A} {ins : List (NdArray A)}
    {out : NdArray A} (h : pointsArr f junk ins = .ok out) : out.arr.stride.length = out.arr.dim.length := by
  unfold pointsArr at h
  cases h1 : orValueError (checkPoints (ins.map (fun a => a.arr.dim))) with
  | error e => rw [h1] at h; cases h
  | ok dims =>
    simp only [h1, except_ok_bind] at h
    generalize orMemory (pointsRec f (ins.map (fun a => a.mem)) dims (contiguous (dims ++ [5]) :: ins.map (fun a => a.arr))
      (junk (dims ++ [5]).prod)) = r at h
    cases r with
    | error e => cases h
    | ok r =>
      cases h
      simp [newArray, contiguous, cstrides_length]

theorem nd_lastItem {x : NdArray ℝ} {lead : List Nat} {n : Nat} {S : List Nat → ℝ} (k : Nat) (hd : x.arr.dim = lead ++ [n])
    (hn : x.arr.stride.length = x.arr.dim.length)
    (h : ∀ idx, Index lead idx → elem x.mem x.arr.data x.arr.stride (idx ++ [k]) = some (S idx)) :
    ItemsOf (lastIndex x k) lead S := by
  have hsl : x.arr.stride.length = lead.length + 1 := by rw [hn, hd]; simp
  obtain ⟨s, t, hs⟩ : ∃ s t, x.arr.stride = s ++ [t] := by
    rw [← List.dropLast_append_getLast (l := x.arr.stride) (by intro h0; rw [h0] at hsl; simp at hsl)]
    exact ⟨_, _, rfl⟩
  have hsl' : s.length = lead.length := by rw [hs] at hsl; simpa using hsl
  refine ⟨by simp [lastIndex, hd], by simp [lastIndex, hd, hs, hsl'], fun idx hi => ?_⟩
  have hil := index_length hi
  rw [← h idx hi]
  unfold elem lastIndex
  simp only
  rw [← offset_eq, ← offset_eq, hs, offset_append _ _ _ _ (by omega)]
  simp only [List.dropLast_concat, offset]
  congr 1
  simp
  ring

/-- What the C code is given besides the arguments. -/
noncomputable def mioEnv (alloc : Nat → Mem ℝ) (junk : Nat → List ℝ) (junkX : Nat → List (X ℝ)) (junk2 : Nat → ℝ × ℝ)
    (year : Int) : MioEnv ℝ (FullEval.State ℝ) :=
  { realEnv alloc junk junkX year with junk2 := junk2, tan := Real.tan }

theorem fin_items {time : NdArray (X ℝ)} {lt : List Nat} {T : List Nat → X ℝ} {τ : List Nat → ℝ} (ht : ItemsOf time lt T)
    (hT : ∀ idx, Index lt idx → T idx = .fin (τ idx)) : ItemsOf (⟨finMem time.mem, time.arr⟩ : NdArray ℝ) lt τ := by
  refine ⟨ht.dim, ht.ndim, fun idx hi => ?_⟩
  have := ht.get idx hi
  rw [hT idx hi] at this
  unfold elem at this ⊢
  simp only [finMem, this]

theorem nd_subsol (env : MioEnv ℝ (FullEval.State ℝ)) (htan : env.tan = Real.tan) (hj : ∀ n, (env.junk n).length = n)
    {time : NdArray (X ℝ)} {lt : List Nat} {T : List Nat → X ℝ} {τ : List Nat → ℝ} (ht : ItemsOf time lt T)
    (hT : ∀ idx, Index lt idx → T idx = .fin (τ idx)) (hl : lt.length ≤ 15) :
    ∃ s, getSubsol libm env time = .ok s ∧ ItemsOf s.1 lt (fun idx => (sunOf (τ idx)).1) ∧
      ItemsOf s.2 lt (fun idx => -(sunOf (τ idx)).2) := by
  have z : ItemsOf (scalarNd (0 : ℝ)) [] (fun _ => 0) := items_new (dims := []) (fun _ => (0 : ℝ))
  obtain ⟨out, e1, e2, e3⟩ := C64_sunpos libm Real.tan env.junk hj _ _ _ _ _ lt [] [] [] [] τ _ _ _ _ (fin_items ht hT) z z z z
    lt ⟨by simp, by simp⟩ hl
  have en := pointsArr_ndim e1
  have key : ∀ idx, Index lt idx → idx.take lt.length = idx := by
    intro idx hi
    rw [← index_length hi, List.take_length]
  have i0 : ItemsOf (lastIndex out 0) lt (fun idx => (sunOf (τ idx)).1) := by
    refine nd_lastItem 0 e2 en fun idx hi => ?_
    have := (e3 idx hi).1
    rw [key idx hi] at this
    exact this
  have i2 : ItemsOf (lastIndex out 2) lt (fun idx => (sunOf (τ idx)).2) := by
    refine nd_lastItem 2 e2 en fun idx hi => ?_
    have := (e3 idx hi).2.2.1
    rw [key idx hi] at this
    exact this
  obtain ⟨lon, l1, l2⟩ := nd_map (fun h : ℝ => -h) i2
  refine ⟨(lastIndex out 0, lon), ?_, i0, l2⟩
  unfold getSubsol
  rw [htan, e1]
  simp only [except_ok_bind, l1]
  rfl

theorem take_of_take {l : List Nat} {a b : List Nat} (h : a.length ≤ b.length) :
    (l.take b.length).take a.length = l.take a.length := by
  rw [List.take_take, min_eq_left h]

/-- `mjd2000_to_magnetic_universal_time` of arrays. -/
theorem nd_magneticTimes (env : MioEnv ℝ (FullEval.State ℝ)) (htan : env.tan = Real.tan)
    (hj : ∀ n, (env.junk n).length = n) {time : NdArray (X ℝ)} {lt lead : List Nat} {T : List Nat → X ℝ} {τ : List Nat → ℝ}
    (ht : ItemsOf time lt T) (hT : ∀ idx, Index lt idx → T idx = .fin (τ idx)) (hl : lt.length ≤ 15) (hp : lt <+: lead)
    (latN lonN : ℝ) {lat lon : Option (NdArray ℝ)} {LA LO : List Nat → Option ℝ} (hla : OptItems lat lead LA)
    (hlo : OptItems lon lead LO) :
    ∃ mt lm M, magneticTimes libm env time latN lonN lat lon = .ok mt ∧ ItemsOf mt lm M ∧
      (lm = [] ∨ lm = lt ∨ lm = lead) ∧ ∀ idx, Index lead idx →
        M (idx.take lm.length) = mutTime libm sunOf (τ (idx.take lt.length)) latN lonN (LA idx) (LO idx) := by
  have hsun : (lat = none ∨ lon = none) → ∃ mt lm M, magneticTimes libm env time latN lonN lat lon = .ok mt ∧
      ItemsOf mt lm M ∧ (lm = [] ∨ lm = lt ∨ lm = lead) ∧ ∀ idx, Index lead idx →
        M (idx.take lm.length) = mutTime libm sunOf (τ (idx.take lt.length)) latN lonN (LA idx) (LO idx) := by
    intro hn
    obtain ⟨s, s1, s2, s3⟩ := nd_subsol env htan hj ht hT hl
    obtain ⟨mt, m1, m2⟩ := nd_zip (d := lt) (magneticUniversalTime libm latN lonN) s2 s3 (.inr rfl) (.inr rfl) (.inl rfl)
    refine ⟨mt, lt, _, ?_, m2, .inr (.inl rfl), fun idx hi => ?_⟩
    · have : subsolar libm env time lat lon = getSubsol libm env time := by
        unfold subsolar
        rcases hn with rfl | rfl
        · rfl
        · cases lat <;> rfl
      unfold magneticTimes
      rw [this, s1]
      exact m1
    · have hnone : LA idx = none ∨ LO idx = none := by
        rcases hn with rfl | rfl
        · exact .inl (hla idx hi)
        · exact .inr (hlo idx hi)
      simp only [take_of_take le_rfl]
      unfold mutTime
      rcases hnone with h | h
      · rw [h]
      · rw [h]
        cases LA idx <;> rfl
  match lat, lon, hla, hlo, hsun with
  | none, lon, hla, hlo, hsun => exact hsun (.inl rfl)
  | some lat, none, hla, hlo, hsun => exact hsun (.inr rfl)
  | some lat, some lon, hla, hlo, _ =>
    obtain ⟨da, S, ha, a1, a2⟩ := hla
    obtain ⟨db, R, hb, b1, b2⟩ := hlo
    obtain ⟨d, hd, h1, h2, h3⟩ : ∃ d, (d = [] ∨ d = lead) ∧ (da = [] ∨ da = d) ∧ (db = [] ∨ db = d) ∧ (da = d ∨ db = d) := by
      by_cases h0 : da = []
      · by_cases h0' : db = []
        · exact ⟨[], .inl rfl, .inl h0, .inl h0', .inl h0⟩
        · exact ⟨lead, .inr rfl, ha, hb, .inr (hb.resolve_left h0')⟩
      · exact ⟨lead, .inr rfl, ha, hb, .inl (ha.resolve_left h0)⟩
    obtain ⟨mt, m1, m2⟩ := nd_zip (d := d) (magneticUniversalTime libm latN lonN) a1 b1 h1 h2 h3
    refine ⟨mt, d, _, m1, m2, ?_, fun idx hi => ?_⟩
    · rcases hd with rfl | rfl
      · exact .inl rfl
      · exact .inr (.inr rfl)
    · have l1 : da.length ≤ d.length := by rcases h1 with rfl | rfl <;> simp
      have l2 : db.length ≤ d.length := by rcases h2 with rfl | rfl <;> simp
      simp only [take_of_take l1, take_of_take l2]
      rw [a2 idx hi, b2 idx hi]
      rfl

/-! ### The field at the points asked for -/

/-- The coefficients kept by the limits on the degrees with their values at the time `t` and the magnetic universal time
`mt`: Fourier sums in the season and the time of the day. -/
noncomputable def mioEntries (c : MioCoef ℝ) (opt : Options ℝ) (t mt : ℝ) : List ((Int × Int) × (ℝ → Prop)) :=
  (c.entries.filter (fun e => Kept opt e.1)).map (fun e => (e.1, fun v => v =
    fourierSum (fun i j => (e.2.getD (i * c.np + j) (0, 0)).1) (fun i j => (e.2.getD (i * c.np + j) (0, 0)).2) c.ns c.np
      c.smin c.pmin (2 * Real.pi * Time.mjd2kToYearFraction t) (2 * Real.pi / 24 * mt)))

/-- Sets of coefficients which can be evaluated: as `GoodFourier`. -/
structure GoodMio (c : MioCoef ℝ) (opt : Options ℝ) (N : Nat) : Prop where
  size : ∀ e ∈ c.entries, e.2.length = c.ns * c.np
  index : ∀ e ∈ c.entries, |e.1.2| ≤ e.1.1
  nodup : (c.entries.map Prod.fst).Nodup
  degrees : c.pmin.natAbs ≤ 1 ∨ c.pmin.natAbs ≤ c.smin.natAbs ∨ c.pmin.natAbs ≤ (c.smin + c.ns - 1).natAbs ∨
    c.pmin.natAbs ≤ (c.pmin + c.np - 1).natAbs
  degree : MaxDegree ((c.entries.map Prod.fst).filter (Kept opt)) N
  one : 1 ≤ N
  fits : ncoef N < 2 ^ 45

theorem GoodMio.sub {c : MioCoef ℝ} {opt : Options ℝ} {N : Nat} (h : GoodMio c opt N) :
    (subsetDegree c.entries opt.minDegree opt.maxDegree).2 = c.entries.filter (fun e => Kept opt e.1) := by
  have hne : c.entries ≠ [] := by
    intro h0
    have h1 := h.one
    rcases h.degree.2 with h2 | ⟨e, he, -⟩
    · omega
    · rw [h0] at he
      simp at he
  exact C11_kept c.entries hne opt.minDegree opt.maxDegree

theorem GoodMio.cm {c : MioCoef ℝ} {opt : Options ℝ} {N : Nat} (h : GoodMio c opt N) :
    (c.fourierSet libm opt.minDegree opt.maxDegree).cm = (c.entries.map Prod.fst).filter (Kept opt) := by
  unfold MioCoef.fourierSet
  simp only [h.sub, List.filter_map]
  rfl

theorem GoodMio.fourier {c : MioCoef ℝ} {opt : Options ℝ} {N : Nat} (h : GoodMio c opt N) :
    GoodFourier (c.fourierSet libm opt.minDegree opt.maxDegree) := by
  refine ⟨?_, ?_, ?_, ?_, h.degrees⟩
  · simp [MioCoef.fourierSet]
  · intro ab hab
    simp only [MioCoef.fourierSet, h.sub] at hab
    obtain ⟨e, he, rfl⟩ := List.mem_map.mp hab
    exact h.size e (List.mem_filter.mp he).1
  · intro e he
    rw [h.cm] at he
    obtain ⟨e', he', rfl⟩ := List.mem_map.mp (List.mem_filter.mp he).1
    exact h.index e' he'
  · rw [h.cm]
    exact h.nodup.filter _

theorem GoodMio.table {c : MioCoef ℝ} {opt : Options ℝ} {N : Nat} (h : GoodMio c opt N) (t mt : ℝ) :
    fourierEntries (c.fourierSet libm opt.minDegree opt.maxDegree) (Time.mjd2kToYearFraction t) mt =
      mioEntries c opt t mt := by
  unfold fourierEntries mioEntries MioCoef.fourierSet
  simp only [h.sub, List.zip_map', List.map_map]
  rfl

/-- The single evaluation in the dipole frame with the coefficients at the times. -/
def IsMioVal (alloc : Nat → Mem ℝ) (m : MioModel ℝ) (opt : Options ℝ) (N : Nat) (i o : CT) (t mt : ℝ) (x w : V3 ℝ) : Prop :=
  ∃ d rows uu u, convertToDipole libm x m.latNgp m.lonNgp (code i) = some d ∧
    TableOf N (mioEntries m.coef opt t mt) rows ∧
    shevalR m.coef.isInternal N .spherical .spherical 2 1 (opposite ⟨1, 1, 1⟩) (alloc N) [(d, rows)] = some [uu] ∧
    uu.2 = some u ∧ rotateVectorsFromDipole libm u m.latNgp m.lonNgp d x (code i) (code o) = some w

theorem mio_fourier (alloc : Nat → Mem ℝ) (ha : ∀ N, MemOk (alloc N) N) (junk : Nat → List ℝ)
    (hj : ∀ n, (junk n).length = n) (junkX : Nat → List (X ℝ)) (hjX : ∀ n, (junkX n).length = n) (junk2 : Nat → ℝ × ℝ)
    (year : Int) (m : MioModel ℝ) (opt : Options ℝ) (N : Nat) (hm : GoodMio m.coef opt N) (hs : opt.scale = .default)
    {time : NdArray (X ℝ)} {loc : NdArray ℝ} {lt lead : List Nat} {T : List Nat → X ℝ} {τ : List Nat → ℝ}
    {P : List Nat → V3 ℝ} (ht : ItemsOf time lt T) (hT : ∀ idx, Index lt idx → T idx = .fin (τ idx))
    (hl : lt.length ≤ 15) (hx : VectorsOf loc lead P) (h1 : loc.arr.stride.getLast? = some 1) (hp : lt <+: lead)
    {lat lon : Option (NdArray ℝ)} {LA LO : List Nat → Option ℝ} (hla : OptItems lat lead LA) (hlo : OptItems lon lead LO) :
    ∃ r, evalFourier2d libm (mioEnv alloc junk junkX junk2 year) m time loc lat lon 1 1 opt = .ok r ∧
      ∀ idx, Index lead idx → ∃ rows u v,
        TableOf N (mioEntries m.coef opt (τ (idx.take lt.length))
          (mutTime libm sunOf (τ (idx.take lt.length)) m.latNgp m.lonNgp (LA idx) (LO idx))) rows ∧
        shevalR m.coef.isInternal N .spherical .spherical 2 1 (opposite ⟨1, 1, 1⟩) (alloc N) [(P idx, rows)] = some [u] ∧
        u.2 = some v ∧ ∀ k : Fin 3, r[rank (lead ++ [3]) (idx ++ [k.val])]? = some (comp v k) := by
  obtain ⟨yf, y1, y2⟩ := timeArr_items (Time.mjd2kToYearFractionX year) junkX hjX time lt T ht hl
  have y3 : ItemsOf (⟨finMem yf.mem, yf.arr⟩ : NdArray ℝ) lt (fun idx => Time.mjd2kToYearFraction (τ idx)) :=
    fin_items y2 (fun idx hi => by rw [hT idx hi]; rfl)
  obtain ⟨mt, lm, M, m1, m2, m3, m4⟩ := nd_magneticTimes (mioEnv alloc junk junkX junk2 year) rfl hj ht hT hl hp m.latNgp
    m.lonNgp hla hlo
  obtain ⟨l2, k1, k2⟩ : ∃ l2, Match lt lm l2 ∧ l2 <+: lead := by
    rcases m3 with rfl | rfl | rfl
    · exact ⟨lt, ⟨List.prefix_rfl, List.nil_prefix, .inl rfl⟩, hp⟩
    · exact ⟨lm, ⟨List.prefix_rfl, List.prefix_rfl, .inl rfl⟩, hp⟩
    · exact ⟨lm, ⟨hp, List.prefix_rfl, .inr rfl⟩, List.prefix_rfl⟩
  obtain ⟨r, f1, f2, -, f4, -, f6, f7⟩ := C67_sheval2dfs_partial alloc ha junk hj junk2 _ mt loc lt lm l2 lead lead N _ M P
    (m.coef.fourierSet libm opt.minDegree opt.maxDegree) hm.fourier (by rw [hm.cm]; exact hm.degree) hm.one hm.fits y3 m2
    hx h1 k1 ⟨List.prefix_rfl, k2, .inl rfl⟩ .spherical .spherical 2 (.inr (.inl rfl)) m.coef.isInternal 1
    (negScale opt.scale) (opposite ⟨1, 1, 1⟩) (negScale_of (.inl ⟨hs, rfl⟩))
  obtain ⟨p, hpp⟩ : ∃ p, r.grd = some p := Option.isSome_iff_exists.mp (f6.mpr (.inl rfl))
  refine ⟨p, ?_, fun idx hi => ?_⟩
  · unfold evalFourier2d
    have y1 : mjd2000ToYearFractionArr (mioEnv alloc junk junkX junk2 year).year (mioEnv alloc junk junkX junk2 year).junkX
      time = .ok yf := y1
    have f1 : sheval2dfsArr libm.cos libm.sin (mioEnv alloc junk junkX junk2 year).evalP
      (mioEnv alloc junk junkX junk2 year).start (mioEnv alloc junk junkX junk2 year).junk
      (mioEnv alloc junk junkX junk2 year).junk2 ⟨finMem yf.mem, yf.arr⟩ mt loc
      (m.coef.fourierSet libm opt.minDegree opt.maxDegree) 1 1 2 m.coef.isInternal 1 (negScale opt.scale) = .ok r := f1
    simp only [y1, m1, except_ok_bind, f1, hpp]
    rfl
  · obtain ⟨rows, hrows, -⟩ := C67_table_exists (m.coef.fourierSet libm opt.minDegree opt.maxDegree) hm.fourier N
      (by rw [hm.cm]; exact hm.degree) (Time.mjd2kToYearFraction (τ (idx.take lt.length))) (M (idx.take lm.length))
    obtain ⟨u, u1, -, u3⟩ := f7 idx hi rows hrows
    rw [hm.table, m4 idx hi] at hrows
    rw [hpp] at u3
    simp only [Option.bind_some] at u3
    have hil := index_length hi
    rw [← hil, List.take_length] at u1
    cases hu : u.2 with
    | none =>
      exfalso
      have h0 := u3 0
      rw [hu] at h0
      simp only [Option.map_none] at h0
      have : rank (lead ++ [3]) (idx ++ [(0 : Fin 3).val]) < p.length := by
        rw [f4 p hpp]
        have hidx : Index (lead ++ [3]) (idx ++ [(0 : Fin 3).val]) := List.rel_append hi (.cons (by simp) .nil)
        have := indices_rank hidx
        have hlt := (List.getElem?_eq_some_iff.mp this).1
        rwa [indices_length] at hlt
      rw [List.getElem?_eq_getElem this] at h0
      cases h0
    | some v =>
      refine ⟨rows, u, v, hrows, u1, hu, fun k => ?_⟩
      rw [u3 k, hu]
      rfl

theorem mio_points (alloc : Nat → Mem ℝ) (ha : ∀ N, MemOk (alloc N) N) (junk : Nat → List ℝ)
    (hj : ∀ n, (junk n).length = n) (junkX : Nat → List (X ℝ)) (hjX : ∀ n, (junkX n).length = n) (junk2 : Nat → ℝ × ℝ)
    (year : Int) (m : MioModel ℝ) (opt : Options ℝ) (N : Nat) (hm : GoodMio m.coef opt N) (i o : CT) (g : V3 ℝ)
    (hg : BroadScaleOf opt.scale g) {time : NdArray (X ℝ)} {loc : NdArray ℝ} {lt lead : List Nat} {T : List Nat → X ℝ}
    {τ : List Nat → ℝ} {P : List Nat → V3 ℝ} (ht : ItemsOf time lt T) (hT : ∀ idx, Index lt idx → T idx = .fin (τ idx))
    (hx : VectorsOf loc lead P) (hl : lead.length ≤ 15) (hp : lt <+: lead) {lat lon : Option (NdArray ℝ)}
    {LA LO : List Nat → Option ℝ} (hla : OptItems lat lead LA) (hlo : OptItems lon lead LO) :
    ∃ W : List Nat → V3 ℝ, evalMioPoints libm (mioEnv alloc junk junkX junk2 year) m time loc lat lon (code i) (code o) opt =
        .ok ((indices lead).map (fun idx => xyz (scaledBy (W idx) g))).flatten ∧
      ∀ idx, Index lead idx → IsMioVal alloc m opt N i o (τ (idx.take lt.length))
        (mutTime libm sunOf (τ (idx.take lt.length)) m.latNgp m.lonNgp (LA idx) (LO idx)) (P idx) (W idx) := by
  obtain ⟨d, d1, d2, d3⟩ := nd_toDipole junk hj hl hx m.latNgp m.lonNgp i
  have hm' : GoodMio m.coef { opt with scale := .default } N :=
    ⟨hm.size, hm.index, hm.nodup, hm.degrees, hm.degree, hm.one, hm.fits⟩
  obtain ⟨r, r1, r3⟩ := mio_fourier alloc ha junk hj junkX hjX junk2 year m { opt with scale := .default } N hm' rfl ht hT
    (hp.length_le.trans hl) d3 d2 hp hla hlo
  let U : List Nat → V3 ℝ := fun idx => ⟨(r[rank (lead ++ [3]) (idx ++ [0])]?).getD 0,
    (r[rank (lead ++ [3]) (idx ++ [1])]?).getD 0, (r[rank (lead ++ [3]) (idx ++ [2])]?).getD 0⟩
  have hU : ∀ idx, Index lead idx → ∀ v : V3 ℝ,
      (∀ k : Fin 3, r[rank (lead ++ [3]) (idx ++ [k.val])]? = some (comp v k)) → U idx = v := by
    intro idx hi v b
    have b0 : r[rank (lead ++ [3]) (idx ++ [0])]? = some v.x := b 0
    have b1 : r[rank (lead ++ [3]) (idx ++ [1])]? = some v.y := b 1
    have b2 : r[rank (lead ++ [3]) (idx ++ [2])]? = some v.z := b 2
    simp only [U, b0, b1, b2, Option.getD_some]
  obtain ⟨y, W, y1, y2, y3⟩ := nd_fromDipole junk hj hl (nd_vectors (F := U) (fun idx hi => by
    obtain ⟨rows, u, v, -, -, -, b⟩ := r3 idx hi
    rw [hU idx hi v b]
    exact b)) d3 hx m.latNgp m.lonNgp i o
  refine ⟨W, ?_, fun idx hi => ?_⟩
  · have d1 : convertToDipoleNd libm (mioEnv alloc junk junkX junk2 year).junk loc m.latNgp m.lonNgp (code i) = .ok d := d1
    have y1 : rotateVectorsFromDipoleNd libm (mioEnv alloc junk junkX junk2 year).junk (newArray d.arr.dim r) m.latNgp
      m.lonNgp d loc (code i) (code o) = .ok y := by rw [d3.dim]; exact y1
    unfold evalMioPoints
    simp only [d1, except_ok_bind, r1, y1]
    unfold scaleNd
    have hn : y.arr.dim.getLastD 0 = 3 := by rw [y2.dim]; simp
    have hs : checkScale opt.scale 3 = .ok () := by
      rcases hg with (⟨h, -⟩ | ⟨s, h, -⟩ | ⟨x, y, z, h, -⟩) | ⟨s, h, -⟩ <;> rw [h] <;> rfl
    simp only [hn]
    rw [reads_points y2]
    simp only [orMemory, except_ok_bind]
    rw [hs]
    have hr := nd_rows y2
    rw [hn] at hr
    rw [hr]
    rw [nd_mapM (f := scaleRow opt.scale) (g := fun idx => xyz (W idx)) (h := fun idx => xyz (scaledBy (W idx) g))
      (indices lead) (fun idx _ => scaleRow_of hg _)]
    rfl
  · obtain ⟨rows, u, v, a1, a2, a3, a4⟩ := r3 idx hi
    refine ⟨_, rows, u, v, toDipole_eq m.latNgp m.lonNgp i (P idx), a1, a2, a3, ?_⟩
    have := y3 idx
    rw [hU idx hi v a4] at this
    exact this

/-! ### The result -/

/-- The index of the array picked of an index of the whole array. -/
def remask (q : List (List Nat)) (md : List Nat) (idx : List Nat) : List Nat :=
  q.idxOf (idx.take md.length) :: idx.drop md.length

theorem remask_index {b : List Nat → Bool} {md rest idx : List Nat} (h : Index (md ++ rest) idx)
    (hb : b (idx.take md.length) = true) : Index ((masked b md).length :: rest) (remask (masked b md) md idx) ∧
      unmask (masked b md) (remask (masked b md) md idx) = idx := by
  have h1 : Index md (idx.take md.length) := index_take (List.prefix_append md rest) h
  have hm : idx.take md.length ∈ masked b md := mem_pick b (indices md) (mem_indices.mpr h1) hb
  have hlt := List.idxOf_lt_length_iff.mpr hm
  refine ⟨.cons hlt ?_, ?_⟩
  · have := List.forall₂_drop md.length h
    rwa [List.drop_left] at this
  · simp only [unmask, remask, List.headD_cons, List.tail_cons]
    rw [List.getD_eq_getElem?_getD, List.getElem?_eq_getElem hlt, Option.getD_some, List.getElem_idxOf, List.take_append_drop]

theorem picked_flat (b : List Nat → Bool) (md rest : List Nat) (V : List Nat → V3 ℝ) :
    ((indices ((masked b md).length :: rest)).map (fun idx => xyz (V idx))).flatten =
      ((masked b md).map (fun i => ((indices rest).map (fun j => xyz (V ((masked b md).idxOf i :: j)))).flatten)).flatten := by
  rw [indices, List.map_flatMap, List.flatMap_def, List.flatten_flatten, List.map_map]
  congr 1
  refine List.ext_getElem? (fun n => ?_)
  by_cases hn : n < (masked b md).length
  · simp only [List.getElem?_map, List.getElem?_range hn, Option.map_some, List.getElem?_eq_getElem hn,
      (masked_nodup b md).idxOf_getElem, Function.comp_def, List.map_map]
  · simp [hn]

theorem flat_xyz_length (l : List (List Nat)) (V : List Nat → V3 ℝ) : ((l.map (fun j => xyz (V j))).flatten).length =
    l.length * 3 := by
  rw [flatten_length 3 _ (by
    intro b hb
    obtain ⟨x, -, rfl⟩ := List.mem_map.mp hb
    rfl), List.length_map]

/-- `result[mask] = ...` -/
theorem put_result (b : List Nat → Bool) (md rest : List Nat) (V : List Nat → V3 ℝ) :
    flatRows (rest ++ [3]).prod (put ((indices md).map b) (rowsOf (((indices md).map b).count true) (rest ++ [3]).prod
        ((indices ((masked b md).length :: rest)).map (fun idx => xyz (V idx))).flatten) (List.replicate md.prod none)) =
      ((indices (md ++ rest)).map (fun idx => if b (idx.take md.length) then
        (xyz (V (remask (masked b md) md idx))).map some else [none, none, none])).flatten := by
  have hn : (rest ++ [3]).prod = (indices rest).length * 3 := by simp [indices_length]
  rw [masked_count, picked_flat]
  have h := rowsOf_flatten (rest ++ [3]).prod ((masked b md).map (fun i => ((indices rest).map
    (fun j => xyz (V ((masked b md).idxOf i :: j)))).flatten)) (by
      intro r hr
      obtain ⟨i, -, rfl⟩ := List.mem_map.mp hr
      rw [flat_xyz_length _ (fun j => V ((masked b md).idxOf i :: j)), hn])
  rw [List.length_map] at h
  rw [h]
  have hr : List.replicate md.prod (none : Option (List ℝ)) = (indices md).map (fun _ => none) := by
    rw [List.map_const', indices_length]
  have hp := put_pick' (fun i => ((indices rest).map (fun j => xyz (V ((masked b md).idxOf i :: j)))).flatten)
    (fun _ => none) b (indices md)
  rw [hr]
  unfold masked at hp ⊢
  rw [hp, indices_append, List.map_flatMap, List.flatMap_def, List.flatten_flatten, List.map_map]
  unfold flatRows
  rw [List.flatMap_map, List.flatMap_def]
  congr 1
  refine List.map_congr_left fun i hi => ?_
  have hil := index_length (mem_indices.mp hi)
  have e : ∀ j : List Nat, (i ++ j).take md.length = i ∧ (i ++ j).drop md.length = j := by
    intro j
    rw [← hil]
    exact ⟨List.take_left, List.drop_left⟩
  cases hb : b i with
  | true =>
    simp only [if_true, Function.comp_def, List.map_map, List.map_flatten]
    congr 1
    refine List.map_congr_left fun j _ => ?_
    simp [remask, (e j).1, (e j).2, hb]
  | false =>
    simp only [Bool.false_eq_true, if_false, Function.comp_def, List.map_map, (e _).1, hb]
    rw [hn]
    induction (indices rest) with
    | nil => rfl
    | cons a l ih =>
      rw [List.map_cons, List.flatten_cons, ← ih, List.length_cons, Nat.add_mul, Nat.add_comm, List.replicate_add]
      rfl

theorem put_result_get (b : List Nat → Bool) (lead : List Nat) (R : List Nat → List (Option ℝ))
    (hR : ∀ idx, (R idx).length = 3) {idx : List Nat} (hi : Index lead idx) (k : Fin 3) :
    (((indices lead).map R).flatten)[rank (lead ++ [3]) (idx ++ [k.val])]? = (R idx)[k.val]? := by
  rw [rank_append 3 k.val hi, flatten_get 3 _ _ k.val (by
    intro b hb
    obtain ⟨x, -, rfl⟩ := List.mem_map.mp hb
    exact hR x) k.isLt, List.getElem?_map, indices_rank hi]
  rfl

theorem nd_reshape {A : Type} {a : NdArray A} {da shape : List Nat} {S : List Nat → A} (h : ItemsOf a da S)
    (hp : da <+: shape) :
    ∃ t, Shapes.reshapeArray shape a.arr = .ok t ∧ ItemsOf ⟨a.mem, t⟩ shape (fun idx => S (idx.take da.length)) := by
  obtain ⟨t, t1, t2, t3⟩ := (C51_array a.mem shape a.arr h.ndim).2 (by rw [h.dim]; exact hp)
  refine ⟨t, t1, t2, ?_, fun idx hi => ?_⟩
  · have hlen := hp.length_le
    have hn := h.ndim
    rw [h.dim] at hn
    unfold Shapes.reshapeArray at t1
    simp only [h.dim] at t1
    split at t1
    · cases t1
    · split at t1
      · cases t1
        simp [hn]
        omega
      · cases t1
        rw [h.ndim]
  · have := t3 idx
    unfold itemOf at this
    simp only
    rw [this, h.dim]
    exact h.get _ (index_take hp hi)

/-- Factor of the F10.7 index, `none` where it is NaN. -/
noncomputable def factorOf (wolf : ℝ) : Option (Option ℝ) → Option ℝ
  | none => some 1
  | some f => f.map (fun x => 1 + wolf * x)

theorem nd_factors (wolf : ℝ) {f : Option (NdArray (Option ℝ))} {lead : List Nat} {F : List Nat → Option (Option ℝ)}
    (h : OptItems f lead F) : ∃ y, factors wolf f = .ok y ∧ y.isSome = f.isSome ∧
      OptItems y lead (fun idx => (F idx).map (Mio.f107Scale wolf)) := by
  match f, h with
  | none, h =>
    refine ⟨none, rfl, rfl, fun idx hi => ?_⟩
    show Option.map _ (F idx) = none
    rw [h idx hi]
    rfl
  | some f, ⟨la, S, h1, h2, h3⟩ =>
    obtain ⟨y, y1, y2⟩ := nd_map (Mio.f107Scale wolf) h2
    refine ⟨some y, ?_, rfl, la, _, h1, y2, fun idx hi => ?_⟩
    · unfold factors
      simp only [y1]
      rfl
    · show Option.map _ (F idx) = _
      rw [h3 idx hi]
      rfl

/-- The mask of valid times and F10.7 indices. -/
noncomputable def wanted (c : MioCoef ℝ) (T : List Nat → X ℝ) (G : List Nat → Option (Option ℝ)) (idx : List Nat) : Bool :=
  c.isValid (T idx) && match G idx with
    | none => true
    | some s => s.isSome

theorem nd_maskOf (c : MioCoef ℝ) {time : NdArray (X ℝ)} {md : List Nat} {T : List Nat → X ℝ} (ht : ItemsOf time md T)
    {s : Option (NdArray (Option ℝ))} {G : List Nat → Option (Option ℝ)} (hs : OptItems s md G) :
    ∃ y, maskOf c time s = .ok y ∧ ItemsOf y md (wanted c T G) := by
  obtain ⟨v, v1, v2⟩ := nd_map c.isValid ht
  match s, hs with
  | none, hs =>
    refine ⟨v, ?_, items_congr v2 fun idx hi => ?_⟩
    · unfold maskOf
      simp only [v1, except_ok_bind]
      rfl
    · unfold wanted
      rw [hs idx hi]
      simp
  | some s, ⟨la, S, h1, h2, h3⟩ =>
    obtain ⟨y, y1, y2⟩ := nd_zip (d := md) (fun (b : Bool) (s : Option ℝ) => b && s.isSome) v2 h2 (.inr rfl) h1 (.inl rfl)
    refine ⟨y, ?_, items_congr y2 fun idx hi => ?_⟩
    · unfold maskOf
      simp only [v1, except_ok_bind]
      exact y1
    · unfold wanted
      rw [h3 idx hi, ← index_length hi, List.take_length]

/-- `result *= mio_scale` -/
theorem nd_timesScale {md rest : List Nat} (hr : md = [] ∨ rest = []) {s : Option (NdArray (Option ℝ))}
    {G : List Nat → Option (Option ℝ)}
    (hs : OptItems s md G) (R : List Nat → List (Option ℝ)) (hR : ∀ idx, (R idx).length = 3) :
    ∃ out, timesScale (md ++ rest ++ [3]) s ((indices (md ++ rest)).map R).flatten = .ok out ∧
      out.length = (md ++ rest ++ [3]).prod ∧ ∀ idx, Index (md ++ rest) idx → ∀ k : Fin 3,
        out[rank (md ++ rest ++ [3]) (idx ++ [k.val])]? = (R idx)[k.val]?.map (fun r =>
          mulNan r ((G (idx.take md.length)).getD (some 1))) := by
  have hlen : (((indices (md ++ rest)).map R).flatten).length = (md ++ rest ++ [3]).prod := by
    rw [flatten_length 3 _ (by
      intro b hb
      obtain ⟨x, -, rfl⟩ := List.mem_map.mp hb
      exact hR x), List.length_map, indices_length]
    simp [Nat.mul_assoc]
  have hget : ∀ idx, Index (md ++ rest) idx → ∀ k : Fin 3,
      (((indices (md ++ rest)).map R).flatten)[rank (md ++ rest ++ [3]) (idx ++ [k.val])]? = (R idx)[k.val]? := by
    intro idx hi k
    exact put_result_get (fun _ => true) _ R hR hi k
  match s, hs with
  | none, hs =>
    refine ⟨_, rfl, hlen, fun idx hi k => ?_⟩
    rw [hget idx hi k, hs _ (index_take (List.prefix_append md rest) hi)]
    cases (R idx)[k.val]? with
    | none => rfl
    | some r => cases r <;> simp [mulNan]
  | some s, ⟨la, S, h1, h2, h3⟩ =>
    unfold timesScale
    simp only [h2.dim]
    by_cases h0 : la = []
    · subst h0
      rw [if_neg (by simp)]
      have hm : s.mem s.arr.data = some (S []) := by
        have := h2.get [] .nil
        unfold elem at this
        simpa using this
      simp only [hm, orMemory, called_ok, except_ok_bind]
      refine ⟨_, rfl, by rw [List.length_map, hlen], fun idx hi k => ?_⟩
      rw [List.getElem?_map, hget idx hi k, h3 _ (index_take (List.prefix_append md rest) hi)]
      simp
    · have hla := h1.resolve_left h0
      subst hla
      have hrest : rest = [] := hr.resolve_left h0
      subst hrest
      simp only [List.append_nil] at hget hlen ⊢
      rw [if_pos (List.length_pos_iff.mpr h0)]
      obtain ⟨t, t1, t2⟩ := nd_reshape h2 (List.prefix_append la [3])
      simp only [t1, nd_items t2, called_ok, except_ok_bind]
      refine ⟨_, rfl, ?_, fun idx hi k => ?_⟩
      · rw [List.length_zipWith, hlen, List.length_map, indices_length, min_self]
      · have hik : Index (la ++ [3]) (idx ++ [k.val]) := List.rel_append hi (.cons k.isLt .nil)
        rw [List.getElem?_zipWith, hget idx hi k, List.getElem?_map, indices_rank hik]
        simp only [Option.map_some]
        have e1 : List.take la.length (idx ++ [k.val]) = idx := by rw [← index_length hi, List.take_left]
        have e2 : List.take la.length idx = idx := by rw [← index_length hi, List.take_length]
        rw [e2, e1, h3 idx hi, e2]
        cases (R idx)[k.val]? <;> rfl

/-- All of the evaluation: where the mask is set, the single evaluation times the factor of F10.7. -/
theorem mio_eval (alloc : Nat → Mem ℝ) (ha : ∀ N, MemOk (alloc N) N) (junk : Nat → List ℝ)
    (hj : ∀ n, (junk n).length = n) (junkX : Nat → List (X ℝ)) (hjX : ∀ n, (junkX n).length = n) (junk2 : Nat → ℝ × ℝ)
    (year : Int) (m : MioModel ℝ) (opt : Options ℝ) (N : Nat) (hm : GoodMio m.coef opt N) (i o : CT) (g : V3 ℝ)
    (hg : BroadScaleOf opt.scale g) {time : NdArray (X ℝ)} {loc : NdArray ℝ} {lt lead md rest : List Nat}
    {T : List Nat → X ℝ} {P : List Nat → V3 ℝ} (ht : ItemsOf time lt T) (hx : VectorsOf loc lead P) (hp : lt <+: lead)
    (hmd : md = if lt = [] then [] else lead) (hrest : lead = md ++ rest)
    (hT : ∀ idx, Index lt idx → m.coef.isValid (T idx) = true → ∃ t, T idx = .fin t)
    (hl : rest.length ≤ 14) {f107 : Option (NdArray (Option ℝ))} {F : List Nat → Option (Option ℝ)}
    (hf : OptItems f107 md F) {lat lon : Option (NdArray ℝ)} {LA LO : List Nat → Option ℝ} (hla : OptItems lat lead LA)
    (hlo : OptItems lon lead LO) :
    ∃ out, evalMio libm (mioEnv alloc junk junkX junk2 year) m time loc f107 lat lon (code i) (code o) opt =
        .ok (lead ++ [3], out) ∧ out.length = (lead ++ [3]).prod ∧
      ∀ idx, Index lead idx →
        ((m.coef.isValid (T (idx.take lt.length)) = false ∨ factorOf m.wolf (F (idx.take md.length)) = none) →
          ∀ k : Fin 3, out[rank (lead ++ [3]) (idx ++ [k.val])]? = some none) ∧
        ∀ c, m.coef.isValid (T (idx.take lt.length)) = true → factorOf m.wolf (F (idx.take md.length)) = some c →
          ∃ t w, T (idx.take lt.length) = .fin t ∧
            IsMioVal alloc m opt N i o t (mutTime libm sunOf t m.latNgp m.lonNgp (LA idx) (LO idx)) (P idx) w ∧
            ∀ k : Fin 3, out[rank (lead ++ [3]) (idx ++ [k.val])]? = some (some (comp (scaledBy w g) k * c)) := by
  obtain ⟨ta, r1, r2⟩ := reshape_items ht hx.dim hp
  rw [← hmd] at r2
  obtain ⟨sc, s1, -, s2⟩ := nd_factors m.wolf hf
  obtain ⟨mask, k1, k2⟩ := nd_maskOf m.coef r2 s2
  set b := wanted m.coef (fun idx => T (idx.take lt.length)) (fun idx => (F idx).map (Mio.f107Scale m.wolf)) with hb
  have hxm : VectorsOf (⟨loc.mem, loc.arr⟩ : NdArray ℝ) (md ++ rest) P := by rw [← hrest]; exact hx
  have htm : ItemsOf (⟨time.mem, ta⟩ : NdArray (X ℝ)) (md ++ []) (fun idx => T (idx.take lt.length)) := by
    rw [List.append_nil]; exact r2
  obtain ⟨tk, t1, t2⟩ := nd_mask b htm
  obtain ⟨lk, l1, l2⟩ := nd_mask_vectors b hxm
  obtain ⟨latk, a1, a2⟩ := nd_subset b (by rw [← hrest]; exact hla)
  obtain ⟨lonk, o1, o2⟩ := nd_subset b (by rw [← hrest]; exact hlo)
  set q := masked b md with hq
  have hltl : lt.length ≤ md.length := by
    rw [hmd]
    by_cases h0 : lt = []
    · simp [h0]
    · rw [if_neg h0]
      exact hp.length_le
  have hTq : ∀ i ∈ q, ∃ t, T (i.take lt.length) = .fin t := by
    intro i hi
    obtain ⟨i1, i2⟩ := masked_mem b md hi
    refine hT _ ?_ (by rw [hb, wanted, Bool.and_eq_true] at i2; exact i2.1)
    have hpm : lt <+: md := by
      rw [hmd]
      by_cases h0 : lt = []
      · simp [h0]
      · rw [if_neg h0]
        exact hp
    exact index_take hpm i1
  let τ : List Nat → ℝ := fun idx => match T ((q.getD (idx.headD 0) []).take lt.length) with
    | .fin t => t
    | _ => 0
  have hτ : ∀ idx, Index [q.length] idx → T ((q.getD (idx.headD 0) [] ++ idx.tail).take lt.length) = .fin (τ idx) := by
    intro idx hi
    match idx, hi with
    | [n], .cons hn .nil =>
      have hmem : q.getD n [] ∈ q := by
        rw [List.getD_eq_getElem?_getD, List.getElem?_eq_getElem hn]
        exact List.getElem_mem hn
      obtain ⟨t, h⟩ := hTq _ hmem
      simp only [List.headD_cons, List.tail_cons, List.append_nil, τ, h]
  obtain ⟨W, w1, w2⟩ := mio_points alloc ha junk hj junkX hjX junk2 year m opt N hm i o g hg t2 hτ l2
    (by simp only [List.length_cons]; omega) (List.cons_prefix_cons.mpr ⟨rfl, List.nil_prefix⟩) a2 o2
  have hres := put_result b md rest (fun idx => scaledBy (W idx) g)
  rw [← hq] at hres
  obtain ⟨out, u1, u2, u3⟩ := nd_timesScale (md := md) (rest := rest) (by
      rw [hmd] at hrest ⊢
      by_cases h0 : lt = []
      · simp [h0]
      · rw [if_neg h0] at hrest
        right
        simpa using hrest) s2 (fun idx => if b (idx.take md.length) then
        (xyz (scaledBy (W (remask q md idx)) g)).map some else [none, none, none]) (fun idx => by
          split <;> rfl)
  rw [← hrest] at hres u1 u2 u3
  refine ⟨out, ?_, u2, fun idx hi => ?_⟩
  · have hd : (lead ++ [3]).drop md.length = rest ++ [3] := by
      rw [hrest, List.append_assoc, List.drop_left]
    unfold evalMio
    rw [r1]
    simp only [s1, k1, called_ok, except_ok_bind, k2.dim, nd_items k2, t1, l1, a1, o1, w1, hd, hres, hx.dim, u1]
    rfl
  · have hi' : Index (md ++ rest) idx := by rw [← hrest]; exact hi
    have e0 : (idx.take md.length).take lt.length = idx.take lt.length := by rw [List.take_take, min_eq_left hltl]
    have hbv : b (idx.take md.length) = (m.coef.isValid (T (idx.take lt.length)) &&
        (factorOf m.wolf (F (idx.take md.length))).isSome) := by
      rw [hb, wanted, e0]
      congr 1
      cases F (idx.take md.length) with
      | none => rfl
      | some f => rfl
    have hfac : ((F (idx.take md.length)).map (Mio.f107Scale m.wolf)).getD (some 1) =
        factorOf m.wolf (F (idx.take md.length)) := by
      cases F (idx.take md.length) <;> rfl
    constructor
    · intro h k
      have hbf : b (idx.take md.length) = false := by
        rw [hbv]
        rcases h with h | h <;> simp [h]
      rw [u3 idx hi k, hbf]
      fin_cases k <;> rfl
    · intro c hv hc
      have hbt : b (idx.take md.length) = true := by rw [hbv, hv, hc]; rfl
      obtain ⟨j1, j2⟩ := remask_index hi' hbt
      rw [← hq] at j1 j2
      have hmem : idx.take md.length ∈ q :=
        mem_pick b (indices md) (mem_indices.mpr (index_take (List.prefix_append md rest) hi')) hbt
      obtain ⟨t, h⟩ := hTq _ hmem
      have hlt := List.idxOf_lt_length_iff.mpr hmem
      have hτt : τ ((remask q md idx).take 1) = t := by
        have : q.getD (q.idxOf (idx.take md.length)) [] = idx.take md.length := by
          rw [List.getD_eq_getElem?_getD, List.getElem?_eq_getElem hlt, Option.getD_some, List.getElem_idxOf]
        simp only [remask, List.take_succ_cons, List.take_zero, List.headD_cons, τ, this, h]
      have w3 := w2 _ j1
      have e1 : [q.length].length = 1 := rfl
      rw [e1, hτt, j2] at w3
      refine ⟨t, _, by rw [← e0]; exact h, w3, fun k => ?_⟩
      rw [u3 idx hi k, if_pos hbt, hfac, hc]
      fin_cases k <;> rfl

/-! ### The theorem -/

/-- The sub-solar point: the one given, or that of the Sun at the time `t` unless both coordinates are given. -/
def SubsolarPoint (la lo : Option ℝ) (t latS lonS : ℝ) : Prop :=
  la = some latS ∧ lo = some lonS ∨ (la = none ∨ lo = none) ∧ latS = (sunOf t).1 ∧ lonS = -(sunOf t).2

/-- Hours of the day of the dipole: twelve when the sub-solar point is on the meridian of the dipole longitude zero. -/
structure MagneticTimeAt (m : M3 ℝ) (latS lonS mt : ℝ) : Prop where
  lower : 0 ≤ mt
  upper : mt < 24
  longitude : ∃ ρ : ℝ, 0 ≤ ρ ∧ (dot (direction latS lonS) m).x = ρ * Real.cos ((180 - 15 * mt) * (Real.pi / 180)) ∧
    (dot (direction latS lonS) m).y = ρ * Real.sin ((180 - 15 * mt) * (Real.pi / 180))

theorem mutTime_spec (t latN lonN : ℝ) (la lo : Option ℝ) : ∃ latS lonS, SubsolarPoint la lo t latS lonS ∧
    MagneticTimeAt (dipoleMatrix libm latN lonN) latS lonS (mutTime libm sunOf t latN lonN la lo) := by
  obtain ⟨latS, lonS, h1, h2⟩ := C37_time sunOf t latN lonN la lo
  refine ⟨latS, lonS, h2, ?_⟩
  obtain ⟨m1, m2, d, m3, m4⟩ := C37_mut latN lonN latS lonS 1 one_pos
  rw [h1]
  refine ⟨m1, m2, ?_⟩
  have hd : convCartSph libm (dot (convSphCart libm ⟨latS, lonS, 1⟩) (dipoleMatrix libm latN lonN)) = d :=
    Option.some.inj m3
  have hdir : convSphCart libm ⟨latS, lonS, 1⟩ = direction latS lonS := by
    have e : ∀ x : ℝ, dg2rad libm * x = x * (Real.pi / 180) := fun x => dg2rad_mul x
    have hc : libm.cos = Real.cos := rfl
    have hs : libm.sin = Real.sin := rfl
    refine V3.ext' ?_ ?_ ?_ <;> simp only [convSphCart, sph2cart, direction, e, hc, hs] <;> ring
  rw [hdir] at hd
  set p := dot (direction latS lonS) (dipoleMatrix libm latN lonN) with hp
  have hy : (180 - 15 * magneticUniversalTime libm latN lonN latS lonS) * (Real.pi / 180) = atan2 p.y p.x := by
    rw [m4, ← hd]
    have : (convCartSph libm p).y = atan2 p.y p.x * (180 / Real.pi) := by
      show atan2 p.y p.x * (180 * (1 / Real.pi)) = _
      ring
    rw [this]
    have := Real.pi_pos
    field_simp
    ring
  rw [hy]
  exact ⟨norm2d libm p.x p.y, Real.sqrt_nonneg _, (cart_polar p.x p.y).1, (cart_polar p.x p.y).2⟩

/-- The scale times a factor. -/
def byFactor (c : ℝ) (g : V3 ℝ) : V3 ℝ := ⟨g.x * c, g.y * c, g.z * c⟩

theorem mio_valid (c : MioCoef ℝ) (t : X ℝ) : c.isValid t = true ↔ Within c.vs c.ve t :=
  C74_valid ⟨c.vs, c.ve, []⟩ t

/-- The three items of the result for the time `tx`, the F10.7 index `F`, the sub-solar point `la`, `lo` (`none` if not
given) and the position `x`: NaN if the time is out of the validity of the model or F10.7 is NaN, otherwise the field of the
coefficients given by the Fourier sums at the season and the magnetic universal time, times one plus the Wolf ratio times
F10.7, in the frame of the dipole (from `A`). -/
def MioAt (m : MioModel ℝ) (A : M3 ℝ) (opt : Options ℝ) (N : Nat) (i o : CT) (g : V3 ℝ) (tx : X ℝ) (F : Option (Option ℝ))
    (la lo : Option ℝ) (x : V3 ℝ) (item : Fin 3 → Option (Option ℝ)) : Prop :=
  ((¬ Within m.coef.vs m.coef.ve tx ∨ F = some none) → ∀ k, item k = some none) ∧
  (Within m.coef.vs m.coef.ve tx → ∀ c : ℝ, (F = none ∧ c = 1 ∨ ∃ f, F = some (some f) ∧ c = 1 + m.wolf * f) →
    ∃ t, tx = .fin t ∧ ∃ v : V3 ℝ, (∀ k, item k = some (some (comp v k))) ∧
      (Pos i x → (∀ c s, convert libm x (code i) 2 = some c → convert libm (dot c A) 2 1 = some s →
          1 / 10 ^ 10 ≤ |Real.cos (s.x * (Real.pi / 180))| ∨ Real.cos (s.x * (Real.pi / 180)) = 0) →
        ∃ latS lonS mt, SubsolarPoint la lo t latS lonS ∧ MagneticTimeAt A latS lonS mt ∧
          DipoleField A (mioEntries m.coef opt t mt) m.coef.isInternal N (byFactor c g) i o x v))

theorem eval_matrix (m : MioModel ℝ) :
    ∀ (alloc : Nat → Mem ℝ), (∀ N, MemOk (alloc N) N) → ∀ (junk : Nat → List ℝ), (∀ n, (junk n).length = n) →
    ∀ (junkX : Nat → List (X ℝ)), (∀ n, (junkX n).length = n) → ∀ (junk2 : Nat → ℝ × ℝ) (year : Int) (opt : Options ℝ)
      (N : Nat), GoodMio m.coef opt N →
      ∀ (time : NdArray (X ℝ)) (loc : NdArray ℝ) (lt lead : List Nat) (T : List Nat → X ℝ) (P : List Nat → V3 ℝ),
      ItemsOf time lt T → VectorsOf loc lead P → lt <+: lead →
      (∀ idx, Index lt idx → T idx ≠ .ninf ∧ T idx ≠ .pinf) → (lt = [] → lead.length ≤ 14) →
      ∀ (f107 : Option (NdArray (Option ℝ))) (F : List Nat → Option (Option ℝ)), OptItems f107 lead F →
      (lt = [] → ∀ f, f107 = some f → f.arr.dim = []) →
      ∀ (lat lon : Option (NdArray ℝ)) (LA LO : List Nat → Option ℝ), OptItems lat lead LA → OptItems lon lead LO →
      ∀ (i o : CT) (g : V3 ℝ), BroadScaleOf opt.scale g →
    ∃ out, evalMio libm (mioEnv alloc junk junkX junk2 year) m time loc f107 lat lon (code i) (code o) opt =
        .ok (lead ++ [3], out) ∧ out.length = (lead ++ [3]).prod ∧
      ∀ idx, Index lead idx → MioAt m (dipoleMatrix libm m.latNgp m.lonNgp) opt N i o g
        (T (idx.take lt.length)) (F idx) (LA idx) (LO idx) (P idx)
        (fun k => out[rank (lead ++ [3]) (idx ++ [k.val])]?) := by
  intro alloc ha junk hj junkX hjX junk2 year opt N hm time loc lt lead T P ht hx hp hT hl f107 F hf hf0 lat lon LA LO hla
    hlo i o g hg
  obtain ⟨md, rest, hmd, hrest, hlen⟩ : ∃ md rest, md = (if lt = [] then [] else lead) ∧ lead = md ++ rest ∧
      rest.length ≤ 14 := by
    by_cases h0 : lt = []
    · exact ⟨[], lead, by simp [h0], rfl, hl h0⟩
    · exact ⟨lead, [], by simp [h0], by simp, by simp⟩
  obtain ⟨F', hF', hFF⟩ : ∃ F', OptItems f107 md F' ∧ ∀ idx, Index lead idx → F idx = F' (idx.take md.length) := by
    by_cases h0 : lt = []
    · rw [if_pos h0] at hmd
      match f107, hf, hf0 with
      | none, hf, _ => exact ⟨fun _ => none, fun idx _ => rfl, hf⟩
      | some f, ⟨la, S, h1, h2, h3⟩, hf0 =>
        have hla : la = [] := by rw [← h2.dim]; exact hf0 h0 f rfl
        subst hla
        exact ⟨fun _ => some (S []), ⟨[], S, .inl rfl, h2, fun idx _ => by simp⟩, fun idx hi => by rw [h3 idx hi]; simp⟩
    · rw [if_neg h0] at hmd
      subst hmd
      exact ⟨F, hf, fun idx hi => by rw [← index_length hi, List.take_length]⟩
  obtain ⟨out, e1, e2, e3⟩ := mio_eval alloc ha junk hj junkX hjX junk2 year m opt N hm i o g hg ht hx hp hmd hrest (by
      intro idx hi hv
      obtain ⟨a, b⟩ := hT idx hi
      cases h : T idx with
      | fin t => exact ⟨t, rfl⟩
      | nan =>
        rw [mio_valid, h] at hv
        obtain ⟨_, _, c, -, -, hc, -⟩ := hv
        cases hc
      | ninf => exact absurd h a
      | pinf => exact absurd h b) hlen hF' hla hlo
  refine ⟨out, e1, e2, fun idx hi => ⟨fun h k => (e3 idx hi).1 ?_ k, fun hw c hc => ?_⟩⟩
  · rw [← hFF idx hi]
    rcases h with h | h
    · left
      rw [← mio_valid] at h
      simpa using h
    · right
      rw [h]
      rfl
  · obtain ⟨t, w, t1, ⟨d, rows, uu, u, a1, a2, a3, a4, a5⟩, t3⟩ := (e3 idx hi).2 c ((mio_valid _ _).mpr hw) (by
      rw [← hFF idx hi]
      rcases hc with ⟨h, rfl⟩ | ⟨f, h, rfl⟩ <;> rw [h] <;> rfl)
    refine ⟨t, t1, scaledBy w (byFactor c g), fun k => ?_, fun hpos hpole => ?_⟩
    · show out[_]? = _
      rw [t3 k]
      congr 2
      fin_cases k <;> simp [comp, scaledBy, byFactor, mul_assoc]
    · obtain ⟨latS, lonS, s1, s2⟩ := mutTime_spec t m.latNgp m.lonNgp (LA idx) (LO idx)
      refine ⟨latS, lonS, _, s1, s2, dipole_field ha hm.one a1 a2 a3 a4 a5 hpos (fun s hs => ?_)⟩
      unfold convertToDipole at hs
      obtain ⟨c, hc1, hc2⟩ := Option.bind_eq_some_iff.mp hs
      exact hpole c s hc1 hc2

/-- **C79** `DipoleMIOGeomagneticModel.eval` on arrays of any shape.  At each index the result is NaN if the time is out of
the validity of the model or the F10.7 index is NaN.  Otherwise it is the field of the coefficients given by the Fourier
sums at the season and the magnetic universal time, times one plus the Wolf ratio times F10.7, in the frame of the
dipole.  The magnetic universal time is given by the dipole longitude of the sub-solar point, which is the one passed
or the one of `sunpos`.
What is missing: infinite times; F10.7 and sub-solar coordinates of fewer dimensions than the points (but none); arrays of
F10.7 with a single time are refused (`C79_f107_refused`); degree 1 and more; the second minimal degrees as in C29; not next to
the poles of the dipole (but at the poles); exact arithmetic. -/
theorem C79_eval_partial (m : MioModel ℝ) : ∃ A : M3 ℝ, ToDipoleFrame m.latNgp m.lonNgp A ∧
    ∀ (alloc : Nat → Mem ℝ), (∀ N, MemOk (alloc N) N) → ∀ (junk : Nat → List ℝ), (∀ n, (junk n).length = n) →
    ∀ (junkX : Nat → List (X ℝ)), (∀ n, (junkX n).length = n) → ∀ (junk2 : Nat → ℝ × ℝ) (year : Int) (opt : Options ℝ)
      (N : Nat), GoodMio m.coef opt N →
      ∀ (time : NdArray (X ℝ)) (loc : NdArray ℝ) (lt lead : List Nat) (T : List Nat → X ℝ) (P : List Nat → V3 ℝ),
      ItemsOf time lt T → VectorsOf loc lead P → lt <+: lead →
      (∀ idx, Index lt idx → T idx ≠ .ninf ∧ T idx ≠ .pinf) → (lt = [] → lead.length ≤ 14) →
      ∀ (f107 : Option (NdArray (Option ℝ))) (F : List Nat → Option (Option ℝ)), OptItems f107 lead F →
      (lt = [] → ∀ f, f107 = some f → f.arr.dim = []) →
      ∀ (lat lon : Option (NdArray ℝ)) (LA LO : List Nat → Option ℝ), OptItems lat lead LA → OptItems lon lead LO →
      ∀ (i o : CT) (g : V3 ℝ), BroadScaleOf opt.scale g →
    ∃ out, evalMio libm (mioEnv alloc junk junkX junk2 year) m time loc f107 lat lon (code i) (code o) opt =
        .ok (lead ++ [3], out) ∧ out.length = (lead ++ [3]).prod ∧
      ∀ idx, Index lead idx → MioAt m A opt N i o g (T (idx.take lt.length)) (F idx) (LA idx) (LO idx) (P idx)
        (fun k => out[rank (lead ++ [3]) (idx ++ [k.val])]?) :=
  ⟨_, frame_ok m.latNgp m.lonNgp, eval_matrix m⟩

/-- **C79** arrays of F10.7 with a single time are refused with an `IndexError` (whatever the other arguments). -/
theorem C79_f107_refused {K St : Type} [Field K] [LinearOrder K] [FloorRing K] (L : Libm K) (env : MioEnv K St)
    (m : MioModel K) (time : NdArray (X K)) (loc : NdArray K) (f : NdArray (Option K)) (lead d : List Nat)
    (T : List Nat → X K) (G : List Nat → Option K) (ht : ItemsOf time [] T) (hx : loc.arr.dim = lead ++ [3])
    (hf : ItemsOf f d G) (hd : d ≠ []) (lat lon : Option (NdArray K)) (ctIn ctOut : Int) (opt : Options K) :
    evalMio L env m time loc (some f) lat lon ctIn ctOut opt = .error (.shape .indexError) := by
  obtain ⟨ta, h1, h2, h3⟩ := C51_times_partial time.mem time.arr loc.arr lead 3 hx ht.ndim (by rw [ht.dim]; simp)
  rw [ht.dim] at h2 h3
  simp only [if_true] at h2
  have hta : ta = time.arr := by
    unfold Shapes.reshapeTimesAndCoordinates at h1
    rw [ht.dim, hx] at h1
    cases hc : lead ++ [3] with
    | nil => simp at hc
    | cons a l =>
      rw [hc] at h1
      simp at h1
      exact h1.symm
  subst hta
  obtain ⟨y, y1, y2⟩ := nd_map (Mio.f107Scale m.wolf) hf
  obtain ⟨v, v1, v2⟩ := nd_map m.coef.isValid ht
  obtain ⟨k, k1, k2⟩ := nd_zip (d := d) (fun (b : Bool) (s : Option K) => b && s.isSome) v2 y2 (.inl rfl) (.inr rfl) (.inr rfl)
  have hs : factors m.wolf (some f) = .ok (some y) := by
    unfold factors
    simp only [y1]
    rfl
  have hk : maskOf m.coef ⟨time.mem, time.arr⟩ (some y) = .ok k := by
    unfold maskOf
    have v1 : mapNd m.coef.isValid ⟨time.mem, time.arr⟩ = .ok v := v1
    simp only [v1, except_ok_bind, k1]
  have hmk : ∀ mk, maskNd k.arr.dim mk (⟨time.mem, time.arr⟩ : NdArray (X K)) = .error (.shape .indexError) :=
    fun mk => maskNd_refused mk (by
      rw [k2.dim]
      intro h
      have : (⟨time.mem, time.arr⟩ : NdArray (X K)).arr.dim = [] := ht.dim
      rw [this] at h
      exact hd (List.prefix_nil.mp h))
  unfold evalMio
  rw [h1]
  simp only [hs, hk, called_ok, except_ok_bind, nd_items k2, hmk]
  rfl

/-! ### The primary field -/

theorem maskOption_eq {A : Type} (md : List Nat) (mask : List Bool) (a : Option (NdArray A)) :
    maskOption md mask a = subset md mask a := by
  cases a with
  | none => rfl
  | some a =>
    unfold maskOption maskArray subset
    simp only
    split <;> rfl

theorem index_one {n : Nat} {idx : List Nat} (h : Index [n] idx) : ∃ j, j < n ∧ idx = [j] := by
  match idx, h with
  | [j], .cons hj .nil => exact ⟨j, hj, rfl⟩

/-- One of the two models: its values where the mask is set. -/
theorem mio_layer (m : MioModel ℝ) :
    ∀ (alloc : Nat → Mem ℝ), (∀ N, MemOk (alloc N) N) → ∀ (junk : Nat → List ℝ), (∀ n, (junk n).length = n) →
    ∀ (junkX : Nat → List (X ℝ)), (∀ n, (junkX n).length = n) → ∀ (junk2 : Nat → ℝ × ℝ) (year : Int) (opt : Options ℝ)
      (N : Nat), GoodMio m.coef opt N →
      ∀ (time : NdArray (X ℝ)) (loc : NdArray ℝ) (lt lead : List Nat) (T : List Nat → X ℝ) (P : List Nat → V3 ℝ),
      ItemsOf time lt T → VectorsOf loc lead P → (lt = [] ∨ lt = lead) →
      (∀ idx, Index lt idx → T idx ≠ .ninf ∧ T idx ≠ .pinf) →
      ∀ (f107 : Option (NdArray (Option ℝ))) (F : List Nat → Option (Option ℝ)), OptItems f107 lead F →
      (lt = [] → ∀ f, f107 = some f → f.arr.dim = []) →
      ∀ (lat lon : Option (NdArray ℝ)) (LA LO : List Nat → Option ℝ), OptItems lat lead LA → OptItems lon lead LO →
      ∀ (o : CT) (g : V3 ℝ), BroadScaleOf opt.scale g →
      ∀ (b : List Nat → Bool) (result : List (Option (List (Option ℝ)))),
    ∃ R : List Nat → List (Option ℝ), evalLayer libm (mioEnv alloc junk junkX junk2 year) m time loc f107 lat lon (code o) opt
        lead ((indices lead).map b) result =
        .ok (put ((indices lead).map b) ((pick ((indices lead).map b) (indices lead)).map R) result) ∧
      ∀ idx, Index lead idx → b idx = true → (R idx).length = 3 ∧ MioAt m (dipoleMatrix libm m.latNgp m.lonNgp) opt N
        .spherical o g (T (idx.take lt.length)) (F idx) (LA idx) (LO idx) (P idx) (fun k => (R idx)[k.val]?) := by
  have main := eval_matrix m
  intro alloc ha junk hj junkX hjX junk2 year opt N hm time loc lt lead T P ht hx hp hT f107 F hf hf0 lat lon LA LO hla hlo o
    g hg b result
  set q := masked b lead with hq
  have hx' : VectorsOf loc (lead ++ []) P := by rw [List.append_nil]; exact hx
  obtain ⟨lk, l1, l2⟩ := nd_mask_vectors b hx'
  obtain ⟨fk, f1, f2⟩ := nd_subset b (show OptItems f107 (lead ++ []) F by rw [List.append_nil]; exact hf)
  obtain ⟨latk, a1, a2⟩ := nd_subset b (show OptItems lat (lead ++ []) LA by rw [List.append_nil]; exact hla)
  obtain ⟨lonk, o1, o2⟩ := nd_subset b (show OptItems lon (lead ++ []) LO by rw [List.append_nil]; exact hlo)
  rw [← hq] at l2 f2 a2 o2
  have hun : ∀ idx, Index [q.length] idx → Index lead (unmask q idx) := by
    intro idx hi
    have := (unmask_index (b := b) (md := lead) (rest := []) hi).1
    rwa [List.append_nil] at this
  obtain ⟨tk, ltk, t1, t2, t3, t4⟩ : ∃ tk ltk, maskArray lead ((indices lead).map b) time = .ok tk ∧
      ItemsOf tk ltk (fun idx => if lt = [] then T [] else T (unmask q idx)) ∧ (ltk = [] ∨ ltk = [q.length]) ∧
      (ltk = [] ↔ lt = []) := by
    by_cases h0 : lt = []
    · subst h0
      refine ⟨time, [], ?_, ?_, .inl rfl, by simp⟩
      · unfold maskArray
        rw [ht.dim]
        rfl
      · refine items_congr ht fun idx hi => ?_
        cases hi
        simp
    · have hlt := hp.resolve_left h0
      subst hlt
      have ht' : ItemsOf time (lt ++ []) T := by rw [List.append_nil]; exact ht
      obtain ⟨y, y1, y2⟩ := nd_mask b ht'
      refine ⟨y, [q.length], ?_, ?_, .inr rfl, by simp [h0]⟩
      · unfold maskArray
        rw [ht.dim, if_pos (List.length_pos_iff.mpr h0), y1]
      · simp only [h0, if_false]
        exact y2
  obtain ⟨out, e1, e2, e3⟩ := main alloc ha junk hj junkX hjX junk2 year opt N hm tk lk ltk [q.length] _ _ t2 l2
    (by rcases t3 with rfl | rfl <;> simp) (by
      intro idx hi
      by_cases h0 : lt = []
      · subst h0
        simp only [if_true]
        exact hT [] .nil
      · simp only [h0, if_false]
        have := hp.resolve_left h0
        subst this
        have h1 : ltk = [q.length] := t3.resolve_left (fun h => h0 (t4.mp h))
        subst h1
        exact hT _ (hun idx hi)) (by simp) fk _ f2 (by
      intro h0 f hfk
      have h0 := t4.mp h0
      subst hfk
      match f107, hf0 h0 with
      | none, _ => simp [subset] at f1
      | some f', hf0 =>
        have := hf0 f' rfl
        unfold subset at f1
        simp only [this, List.length_nil, gt_iff_lt, lt_irrefl, if_false, Except.ok.injEq, Option.some.injEq] at f1
        rw [← f1]
        exact this) latk lonk _ _ a2 o2 .spherical o g hg
  refine ⟨fun idx => (rowsOf q.length 3 out).getD (q.idxOf idx) [], ?_, fun idx hi hbt => ?_⟩
  · unfold evalLayer
    simp only [maskOption_eq, f1, a1, o1, except_ok_bind, t1, l1]
    have e1 : evalMio libm (mioEnv alloc junk junkX junk2 year) m tk lk fk latk lonk 1 (code o) opt =
      .ok ([q.length] ++ [3], out) := e1
    simp only [e1, except_ok_bind, masked_count]
    have : rowsOf q.length 3 out = q.map (fun idx => (rowsOf q.length 3 out).getD (q.idxOf idx) []) := by
      have hlen : (rowsOf q.length 3 out).length = q.length := by simp [rowsOf]
      refine List.ext_getElem (by rw [List.length_map, hlen]) fun n h1 h2 => ?_
      rw [List.getElem_map, (masked_nodup b lead).idxOf_getElem, List.getD_eq_getElem?_getD, List.getElem?_eq_getElem h1]
      rfl
    rw [← hq]
    conv_lhs => rw [this]
    rfl
  · have hi' : Index (lead ++ []) idx := by rw [List.append_nil]; exact hi
    have htk : idx.take lead.length = idx := by rw [← index_length hi, List.take_length]
    obtain ⟨j1, j2⟩ := remask_index (b := b) hi' (by rw [htk]; exact hbt)
    rw [← hq] at j1 j2
    have e4 := e3 _ j1
    have hrem : remask q lead idx = [q.idxOf idx] := by
      unfold remask
      rw [htk, List.drop_of_length_le (by rw [index_length hi])]
    rw [hrem] at e4 j2 j1
    obtain ⟨jj, hjj, hje⟩ := index_one j1
    have hjj : q.idxOf idx < q.length := by
      rw [List.cons.injEq] at hje
      rw [hje.1]
      exact hjj
    have hTT : (if lt = [] then T [] else T (unmask q ([q.idxOf idx].take ltk.length))) = T (idx.take lt.length) := by
      by_cases h0 : lt = []
      · simp [h0]
      · have h1 : ltk = [q.length] := t3.resolve_left (fun h => h0 (t4.mp h))
        have h2 := hp.resolve_left h0
        rw [if_neg h0, h1, h2, htk]
        simp only [List.length_singleton, List.take_succ_cons, List.take_zero]
        rw [j2]
    rw [hTT, j2] at e4
    have hrow : (rowsOf q.length 3 out).getD (q.idxOf idx) [] = (out.drop (q.idxOf idx * 3)).take 3 := by
      simp [rowsOf, hjj]
    have hit : ∀ k : Fin 3, out[rank ([q.length] ++ [3]) ([q.idxOf idx] ++ [k.val])]? =
        ((rowsOf q.length 3 out).getD (q.idxOf idx) [])[k.val]? := by
      intro k
      rw [hrow, List.getElem?_take_of_lt k.isLt, List.getElem?_drop]
      congr 1
      simp [rank]
    simp only [hit] at e4
    refine ⟨?_, e4⟩
    have e2' : out.length = q.length * 3 := by simpa using e2
    show ((rowsOf q.length 3 out).getD (q.idxOf idx) []).length = 3
    rw [hrow, List.length_take, List.length_drop, e2']
    omega

theorem primary_matrix (below above : MioModel ℝ) :
    ∀ (alloc : Nat → Mem ℝ), (∀ N, MemOk (alloc N) N) → ∀ (junk : Nat → List ℝ), (∀ n, (junk n).length = n) →
    ∀ (junkX : Nat → List (X ℝ)), (∀ n, (junkX n).length = n) → ∀ (junk2 : Nat → ℝ × ℝ) (year : Int) (opt : Options ℝ)
      (Nb Na : Nat), GoodMio below.coef opt Nb → GoodMio above.coef opt Na →
      ∀ (height radius : ℝ) (time : NdArray (X ℝ)) (loc : NdArray ℝ) (lt lead : List Nat) (T : List Nat → X ℝ)
        (P : List Nat → V3 ℝ),
      ItemsOf time lt T → VectorsOf loc lead P → (lt = [] ∨ lt = lead) → lead.length ≤ 15 →
      (∀ idx, Index lt idx → T idx ≠ .ninf ∧ T idx ≠ .pinf) →
      ∀ (f107 : Option (NdArray (Option ℝ))) (F : List Nat → Option (Option ℝ)), OptItems f107 lead F →
      (lt = [] → ∀ f, f107 = some f → f.arr.dim = []) →
      ∀ (lat lon : Option (NdArray ℝ)) (LA LO : List Nat → Option ℝ), OptItems lat lead LA → OptItems lon lead LO →
      ∀ (i o : CT) (g : V3 ℝ), BroadScaleOf opt.scale g →
    ∃ rows, evalPrimary libm (mioEnv alloc junk junkX junk2 year) below above height radius time loc f107 lat lon (code i)
        (code o) opt = .ok (lead ++ [3], rows) ∧ rows.length = lead.prod ∧
      ∀ idx, Index lead idx → ∃ row x, rows[rank lead idx]? = some (some row) ∧ row.length = 3 ∧
        convert libm (P idx) (code i) 1 = some x ∧
        (x.z ≤ radius + height → MioAt below (dipoleMatrix libm below.latNgp below.lonNgp) opt Nb
          .spherical o g (T (idx.take lt.length)) (F idx) (LA idx) (LO idx) x
          (fun k => row[k.val]?)) ∧
        (radius + height < x.z → MioAt above (dipoleMatrix libm above.latNgp above.lonNgp) opt Na
          .spherical o g (T (idx.take lt.length)) (F idx) (LA idx) (LO idx) x
          (fun k => row[k.val]?)) := by
  have mb := mio_layer below
  have mabove := mio_layer above
  intro alloc ha junk hj junkX hjX junk2 year opt Nb Na hb hab height radius time loc lt lead T P ht hx hp hl hT f107 F hf hf0
    lat lon LA LO hla hlo i o g hg
  obtain ⟨y, y1, y2⟩ := nd_convert junk hj hl hx i .spherical
  have hz := nd_last y2 2
  have hz' : ItemsOf (lastIndex y 2) lead (fun idx => (getFconv libm i .spherical (P idx)).z) := ⟨hz.dim, hz.ndim, hz.get⟩
  obtain ⟨mask, k1, k2⟩ := nd_map (fun r : ℝ => decide (r ≤ height + radius)) hz'
  set b : List Nat → Bool := fun idx => decide ((getFconv libm i .spherical (P idx)).z ≤ height + radius) with hbd
  obtain ⟨R1, r1, r2⟩ := mb alloc ha junk hj junkX hjX junk2 year opt Nb hb time y lt lead T _ ht y2 hp hT f107 F hf hf0 lat
    lon LA LO hla hlo o g hg b (List.replicate lead.prod none)
  have hrep : List.replicate lead.prod (none : Option (List (Option ℝ))) = (indices lead).map (fun _ => none) := by
    rw [List.map_const', indices_length]
  rw [hrep, put_pick'] at r1
  obtain ⟨R2, s1, s2⟩ := mabove alloc ha junk hj junkX hjX junk2 year opt Na hab time y lt lead T _ ht y2 hp hT f107 F hf hf0
    lat lon LA LO hla hlo o g hg (fun idx => !b idx) ((indices lead).map (fun p => if b p then some (R1 p) else none))
  rw [put_pick'] at s1
  refine ⟨(indices lead).map (fun p => if (!b p) then some (R2 p) else if b p then some (R1 p) else none), ?_, ?_,
    fun idx hi => ⟨if b idx then R1 idx else R2 idx, getFconv libm i .spherical (P idx), ?_, ?_,
    convert_code i .spherical (P idx), fun h => ?_, fun h => ?_⟩⟩
  · have y1 : convertNd libm (mioEnv alloc junk junkX junk2 year).junk loc (code i) 1 = .ok y := y1
    unfold evalPrimary
    simp only [y1, called_ok, except_ok_bind, k1, nd_items k2, k2.dim, hrep, List.map_map, Function.comp_def]
    simp only [r1, s1, except_ok_bind]
    rw [y2.dim]
    rfl
  · rw [List.length_map, indices_length]
  · rw [List.getElem?_map, indices_rank hi]
    cases hbi : b idx <;> simp [hbi]
  · cases hbi : b idx
    · exact (s2 idx hi (by simp [hbi])).1
    · exact (r2 idx hi hbi).1
  · have hbt : b idx = true := by
      simp only [hbd, decide_eq_true_eq]
      linarith
    simp only [hbt, if_true]
    exact (r2 idx hi hbt).2
  · have hbf : b idx = false := by
      simp only [hbd, decide_eq_false_iff_not, not_le]
      linarith
    simp only [hbf, Bool.false_eq_true, if_false]
    exact (s2 idx hi (by simp [hbf])).2

/-- **C79** `MIOPrimaryGeomagneticModel.eval` on arrays: points up to the radius of the ionosphere get the values of the
model below it, the others those of the model above it; every item of the result is set.
What is missing: as for `C79_eval_partial`, and arrays of times of fewer dimensions than the points, which are refused
(`C79_primary_refused`). -/
theorem C79_primary_partial (below above : MioModel ℝ) : ∃ Ab Aa : M3 ℝ, ToDipoleFrame below.latNgp below.lonNgp Ab ∧
    ToDipoleFrame above.latNgp above.lonNgp Aa ∧
    ∀ (alloc : Nat → Mem ℝ), (∀ N, MemOk (alloc N) N) → ∀ (junk : Nat → List ℝ), (∀ n, (junk n).length = n) →
    ∀ (junkX : Nat → List (X ℝ)), (∀ n, (junkX n).length = n) → ∀ (junk2 : Nat → ℝ × ℝ) (year : Int) (opt : Options ℝ)
      (Nb Na : Nat), GoodMio below.coef opt Nb → GoodMio above.coef opt Na →
      ∀ (height radius : ℝ) (time : NdArray (X ℝ)) (loc : NdArray ℝ) (lt lead : List Nat) (T : List Nat → X ℝ)
        (P : List Nat → V3 ℝ),
      ItemsOf time lt T → VectorsOf loc lead P → (lt = [] ∨ lt = lead) → lead.length ≤ 15 →
      (∀ idx, Index lt idx → T idx ≠ .ninf ∧ T idx ≠ .pinf) →
      ∀ (f107 : Option (NdArray (Option ℝ))) (F : List Nat → Option (Option ℝ)), OptItems f107 lead F →
      (lt = [] → ∀ f, f107 = some f → f.arr.dim = []) →
      ∀ (lat lon : Option (NdArray ℝ)) (LA LO : List Nat → Option ℝ), OptItems lat lead LA → OptItems lon lead LO →
      ∀ (i o : CT) (g : V3 ℝ), BroadScaleOf opt.scale g →
    ∃ rows, evalPrimary libm (mioEnv alloc junk junkX junk2 year) below above height radius time loc f107 lat lon (code i)
        (code o) opt = .ok (lead ++ [3], rows) ∧ rows.length = lead.prod ∧
      ∀ idx, Index lead idx → ∃ row x, rows[rank lead idx]? = some (some row) ∧ row.length = 3 ∧
        convert libm (P idx) (code i) 1 = some x ∧
        (x.z ≤ radius + height → MioAt below Ab opt Nb .spherical o g (T (idx.take lt.length)) (F idx) (LA idx) (LO idx) x
          (fun k => row[k.val]?)) ∧
        (radius + height < x.z → MioAt above Aa opt Na .spherical o g (T (idx.take lt.length)) (F idx) (LA idx) (LO idx) x
          (fun k => row[k.val]?)) :=
  ⟨_, _, frame_ok _ _, frame_ok _ _, primary_matrix below above⟩

/-- **C79** arrays of times without all the dimensions of the points are refused by the primary model with an
`IndexError`. -/
theorem C79_primary_refused (junk : Nat → List ℝ) (hj : ∀ n, (junk n).length = n) (alloc : Nat → Mem ℝ)
    (junkX : Nat → List (X ℝ)) (junk2 : Nat → ℝ × ℝ) (year : Int) (below above : MioModel ℝ) (height radius : ℝ)
    (time : NdArray (X ℝ)) (loc : NdArray ℝ) (lead : List Nat) (P : List Nat → V3 ℝ) (hx : VectorsOf loc lead P)
    (hl : lead.length ≤ 15) (h0 : time.arr.dim ≠ []) (hd : ¬ lead <+: time.arr.dim) (i : CT) (ctOut : Int)
    (opt : Options ℝ) :
    evalPrimary libm (mioEnv alloc junk junkX junk2 year) below above height radius time loc none none none (code i) ctOut opt =
      .error (.shape .indexError) := by
  obtain ⟨y, y1, y2⟩ := nd_convert junk hj hl hx i .spherical
  have hz := nd_last y2 2
  have hz' : ItemsOf (lastIndex y 2) lead (fun idx => (getFconv libm i .spherical (P idx)).z) := ⟨hz.dim, hz.ndim, hz.get⟩
  obtain ⟨mask, k1, k2⟩ := nd_map (fun r : ℝ => decide (r ≤ height + radius)) hz'
  have y1 : convertNd libm (mioEnv alloc junk junkX junk2 year).junk loc (code i) 1 = .ok y := y1
  unfold evalPrimary
  simp only [y1, called_ok, except_ok_bind, k1, nd_items k2, k2.dim]
  unfold evalLayer
  simp only [maskOption_eq, subset, except_ok_bind]
  unfold maskArray
  rw [if_pos (List.length_pos_iff.mpr h0), maskNd_refused _ hd]
  rfl

/-- A model with one coefficient of the degree 1, the pole of the dipole at the longitude 90° on the equator. -/
def smallMio (K : Type) [DivisionRing K] : MioModel K :=
  ⟨⟨[((1, 0), [(1, 0), (2, 5)])], 1, 2, 0, 0, .fin 0, .fin 1000, true⟩, 0, 90, 1 / 2⟩

-- the conditions on the coefficients
example : GoodMio (smallMio ℝ).coef ⟨-1, -1, .default⟩ 1 :=
  ⟨by simp [smallMio], by simp [smallMio], by simp [smallMio], by simp [smallMio], by simp [smallMio, MaxDegree, Kept], le_rfl,
    by norm_num [ncoef]⟩

-- the conditions on the optional arguments: an array of F10.7 with a NaN, one latitude, no longitudes
example : OptItems (some (newArray [2] [some 70, none])) [2] (fun idx => some (if idx = [0] then some (70 : ℝ) else none)) ∧
    OptItems (some (newArray [] [(12 : ℝ)])) [2] (fun _ => some 12) ∧ OptItems (A := ℝ) none [2] (fun _ => none) := by
  refine ⟨⟨[2], fun idx => if idx = [0] then some 70 else none, .inr rfl, ?_, ?_⟩, ⟨[], fun _ => 12, .inl rfl, ?_, ?_⟩, ?_⟩
  · exact items_new (dims := [2]) (fun idx => if idx = [0] then some 70 else none)
  · intro idx hi
    have hl := index_length hi
    rw [List.take_of_length_le (by simp [hl])]
  · exact items_new (dims := []) (fun _ => (12 : ℝ))
  · intro idx _
    rfl
  · intro idx _
    rfl

-- times 10, 20, 30 and 5000 (not valid), F10.7 1, NaN, 2 and 1, the sub-solar longitudes 180°, 180°, 90° and 180°: the
-- magnetic times are 6 and 12 hours, the coefficients 1 + 5 and 1 - 2; the gradient as in the example of C77
example : (match evalMio (K := ℚ) (St := Unit) quarters
      ⟨⟨fun c _ s v rows => some (s, none, some ⟨c.scaleGradient.x * ((rows[1]?.map Prod.fst).getD 0 + v.x),
        c.scaleGradient.y * v.y, c.scaleGradient.z * 7⟩), fun _ => (),
        fun n => List.replicate n 0, fun n => List.replicate n (.fin 0), 0⟩, fun _ => (0, 0), fun _ => 0⟩ (smallMio ℚ)
      (newArray [4] [.fin 10, .fin 20, .fin 30, .fin 5000])
      (newArray [4, 3] [8, 0, 0, 0, 0, 8, 0, 8, 0, 8, 0, 0]) (some (newArray [4] [some 1, none, some 2, some 1]))
      (some (newArray [] [0])) (some (newArray [4] [180, 180, 90, 180])) 2 2 ⟨-1, -1, .vector [2]⟩ with
    | .ok (shape, items) => shape == [4, 3] && items ==
        [some (-21), some (-18), some (-270), none, none, none, some 0, some (-28), some (-356), none, none, none]
    | _ => false) = true := by
  decide +kernel

-- a single time and an array of F10.7
example : (match evalMio (K := ℚ) (St := Unit) quarters
      ⟨⟨fun _ _ s _ _ => some (s, none, none), fun _ => (), fun n => List.replicate n 0,
        fun n => List.replicate n (.fin 0), 0⟩, fun _ => (0, 0), fun _ => 0⟩ (smallMio ℚ) (newArray [] [.fin 10])
      (newArray [2, 3] [8, 0, 0, 0, 0, 8]) (some (newArray [2] [some 1, some 2])) none none 2 2 ⟨-1, -1, .default⟩ with
    | .error (.shape .indexError) => true
    | _ => false) = true := by
  decide +kernel

-- the primary field with the ionosphere at the radius 4: the points (1, 0, 0) and (8, 0, 0), the latter with the coefficient
-- ten times larger
example : (match evalPrimary (K := ℚ) (St := Unit) quarters
      ⟨⟨fun c _ s v rows => some (s, none, some ⟨c.scaleGradient.x * ((rows[1]?.map Prod.fst).getD 0 + v.x),
        c.scaleGradient.y * v.y, c.scaleGradient.z * 7⟩), fun _ => (),
        fun n => List.replicate n 0, fun n => List.replicate n (.fin 0), 0⟩, fun _ => (0, 0), fun _ => 0⟩ (smallMio ℚ)
      ⟨⟨[((1, 0), [(10, 0), (20, 50)])], 1, 2, 0, 0, .fin 0, .fin 1000, true⟩, 0, 90, 1 / 2⟩ 1 3
      (newArray [] [.fin 10]) (newArray [2, 3] [1, 0, 0, 8, 0, 0]) (some (newArray [] [some 1])) (some (newArray [] [0]))
      (some (newArray [2] [180, 180])) 2 2 ⟨-1, -1, .default⟩ with
    | .ok (shape, rows) => shape == [2, 3] && rows ==
        [some [some (-21 / 2), some (-9), some (-135)], some [some (-21 / 2), some (-90), some (-135)]]
    | _ => false) = true := by
  decide +kernel

end Verif.Props
