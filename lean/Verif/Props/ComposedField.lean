import Verif.Model.ComposedField
import Verif.Props.MioField

/-!
# C80: composed models on arrays
-/

set_option linter.unusedSectionVars false

namespace Verif.Props

open Verif.Geo Verif.Spec Verif.ShPoint Verif.FullEval Verif.Arr Verif.Buf Verif.Field Verif.Coeffs Verif.MioField
open Verif.ComposedField

/-! ### Vectors which may be NaN -/

/-- The items of a vector; all are NaN for `none`. -/
def lift3 (r : Option (V3 ℝ)) : V3 (Option ℝ) := ⟨r.map V3.x, r.map V3.y, r.map V3.z⟩

theorem comp_lift3 (r : Option (V3 ℝ)) (k : Fin 3) : comp (lift3 r) k = r.map (comp · k) := by
  fin_cases k <;> rfl

/-- The array `out` of vectors shows the values `R`. -/
def Shows (lead : List Nat) (out : List (Option ℝ)) (R : List Nat → Option (V3 ℝ)) : Prop :=
  out.length = (lead ++ [3]).prod ∧
    ∀ idx, Index lead idx → ∀ k : Fin 3, out[rank (lead ++ [3]) (idx ++ [k.val])]? = some ((R idx).map (comp · k))

theorem shows_vectors {lead : List Nat} {out : List (Option ℝ)} {R : List Nat → Option (V3 ℝ)} (h : Shows lead out R) :
    VectorsOf (newArray (lead ++ [3]) out) lead (fun idx => lift3 (R idx)) :=
  nd_vectors fun idx hi k => by rw [h.2 idx hi k, comp_lift3]

/-- The three items of a row. -/
def row3 (r : Option (V3 ℝ)) : List (Option ℝ) := [r.map V3.x, r.map V3.y, r.map V3.z]

theorem row3_get (r : Option (V3 ℝ)) (k : Fin 3) : (row3 r)[k.val]? = some (r.map (comp · k)) := by
  fin_cases k <;> rfl

theorem shows_flat (lead : List Nat) (R : List Nat → Option (V3 ℝ)) :
    Shows lead ((indices lead).map (fun idx => row3 (R idx))).flatten R := by
  have hl : ∀ b ∈ (indices lead).map (fun idx => row3 (R idx)), b.length = 3 := by
    intro b hb
    obtain ⟨x, -, rfl⟩ := List.mem_map.mp hb
    rfl
  constructor
  · rw [flatten_length 3 _ hl, List.length_map, indices_length]
    simp
  · intro idx hi k
    rw [rank_append 3 k.val hi, flatten_get 3 _ _ k.val hl k.isLt, List.getElem?_map, indices_rank hi]
    exact row3_get _ k

theorem rank_of_get {d j : List Nat} {n : Nat} (h : (indices d)[n]? = some j) : rank d j = n := by
  have hj : Index d j := mem_indices.mp (List.mem_of_getElem? h)
  have h2 := indices_rank hj
  obtain ⟨h3, h4⟩ := List.getElem?_eq_some_iff.mp h
  obtain ⟨h5, h6⟩ := List.getElem?_eq_some_iff.mp h2
  exact ((indices_nodup d).getElem_inj_iff).mp (h6.trans h4.symm)

/-- Lists with the items of an array are told by the items. -/
theorem list_of_ranks {A : Type} {d : List Nat} {l : List A} {S : List Nat → A} (hl : l.length = d.prod)
    (h : ∀ j, Index d j → l[rank d j]? = some (S j)) : l = (indices d).map S := by
  apply List.ext_getElem?
  intro n
  by_cases hn : n < d.prod
  · have hn' : n < (indices d).length := by rw [indices_length]; exact hn
    have hg : (indices d)[n]? = some (indices d)[n] := List.getElem?_eq_getElem hn'
    have hr := rank_of_get hg
    have := h _ (mem_indices.mp (List.getElem_mem hn'))
    rw [hr] at this
    rw [this, List.getElem?_map, hg]
    rfl
  · rw [List.getElem?_eq_none (by omega), List.getElem?_eq_none (by rw [List.length_map, indices_length]; omega)]

theorem vector_index {lead idx : List Nat} (h : Index lead idx) (k : Fin 3) : Index (lead ++ [3]) (idx ++ [k.val]) :=
  List.rel_append h (.cons k.isLt .nil)

theorem vector_split {lead j : List Nat} (h : Index (lead ++ [3]) j) :
    ∃ idx, ∃ k : Fin 3, Index lead idx ∧ j = idx ++ [k.val] := by
  have h1 : Index lead (j.take lead.length) := by
    have := List.forall₂_take lead.length h
    rwa [List.take_left] at this
  have h2 : Index [3] (j.drop lead.length) := by
    have := List.forall₂_drop lead.length h
    rwa [List.drop_left] at this
  cases hd : j.drop lead.length with
  | nil => rw [hd] at h2; cases h2
  | cons k r =>
    rw [hd] at h2
    cases h2 with
    | cons h3 h4 =>
      cases h4
      refine ⟨j.take lead.length, ⟨k, h3⟩, h1, ?_⟩
      rw [← hd, List.take_append_drop]

theorem shows_unique {lead : List Nat} {a b : List (Option ℝ)} {R : List Nat → Option (V3 ℝ)} (ha : Shows lead a R)
    (hb : Shows lead b R) : a = b := by
  apply List.ext_getElem?
  intro n
  by_cases hn : n < (lead ++ [3]).prod
  · have hn' : n < (indices (lead ++ [3])).length := by rw [indices_length]; exact hn
    have hg : (indices (lead ++ [3]))[n]? = some (indices (lead ++ [3]))[n] := List.getElem?_eq_getElem hn'
    have hr := rank_of_get hg
    obtain ⟨idx, k, hi, hj⟩ := vector_split (mem_indices.mp (List.getElem_mem hn'))
    rw [hj] at hr
    have h1 := ha.2 idx hi k
    have h2 := hb.2 idx hi k
    rw [hr] at h1 h2
    rw [h1, h2]
  · rw [List.getElem?_eq_none (by rw [ha.1]; omega), List.getElem?_eq_none (by rw [hb.1]; omega)]

theorem shows_eq {lead : List Nat} {out : List (Option ℝ)} {R : List Nat → Option (V3 ℝ)} (h : Shows lead out R) :
    out = ((indices lead).map (fun idx => row3 (R idx))).flatten := shows_unique h (shows_flat lead R)

theorem shows_congr {lead : List Nat} {out : List (Option ℝ)} {R R' : List Nat → Option (V3 ℝ)} (h : Shows lead out R)
    (e : ∀ idx, Index lead idx → R idx = R' idx) : Shows lead out R' :=
  ⟨h.1, fun idx hi k => by rw [h.2 idx hi k, e idx hi]⟩

/-- The sum of two values: NaN if one of them is NaN. -/
noncomputable def addV : Option (V3 ℝ) → Option (V3 ℝ) → Option (V3 ℝ)
  | some a, some b => some (vadd a b)
  | _, _ => none

theorem addV_item (a b : Option (V3 ℝ)) (k : Fin 3) :
    addNan (a.map (comp · k)) (b.map (comp · k)) = (addV a b).map (comp · k) := by
  cases a <;> cases b <;> fin_cases k <;> rfl

theorem rank_lt' {lead idx : List Nat} (hi : Index lead idx) (k : Fin 3) :
    rank (lead ++ [3]) (idx ++ [k.val]) < (lead ++ [3]).prod := rank_lt (vector_index hi k)

theorem items_list {A : Type} (z : A) {d : List Nat} {l : List A} (h : l.length = d.prod) :
    ItemsOf (newArray d l) d (fun j => (l[rank d j]?).getD z) := by
  have : l = (indices d).map (fun j => (l[rank d j]?).getD z) := list_of_ranks h (by
    intro j hj
    have := rank_lt hj
    rw [List.getElem?_eq_getElem (by omega)]
    rfl)
  conv in newArray d l => rw [this]
  exact items_new _

theorem add_arrays {lead : List Nat} {a b : List (Option ℝ)} {R Q : List Nat → Option (V3 ℝ)} (ha : Shows lead a R)
    (hb : Shows lead b Q) : ∃ c, addArrays (lead ++ [3], a) (lead ++ [3], b) = .ok (lead ++ [3], c) ∧
      Shows lead c (fun idx => addV (R idx) (Q idx)) := by
  obtain ⟨y, y1, y2⟩ := nd_zip addNan (items_list none ha.1) (items_list none hb.1) (.inr rfl) (.inr rfl) (.inl rfl)
  refine ⟨_, by
    unfold addArrays
    simp only [y1, nd_items y2, called_ok, except_ok_bind, y2.dim]
    rfl, ?_, ?_⟩
  · rw [List.length_map, indices_length]
  · intro idx hi k
    rw [List.getElem?_map, indices_rank (vector_index hi k)]
    simp only [Option.map_some]
    have e : (idx ++ [k.val]).take (lead ++ [3]).length = idx ++ [k.val] := by
      rw [List.take_of_length_le]
      simp [index_length hi]
    rw [e, ha.2 idx hi k, hb.2 idx hi k, ← addV_item]
    rfl

/-- A model without components: zeros, NaN where the time is NaN. -/
noncomputable def zeroAt : X ℝ → Option (V3 ℝ)
  | .nan => none
  | _ => some ⟨0, 0, 0⟩

theorem empty_result {time : NdArray (X ℝ)} {loc : NdArray ℝ} {lt lead : List Nat} {T : List Nat → X ℝ} {P : List Nat → V3 ℝ}
    (ht : ItemsOf time lt T) (hx : VectorsOf loc lead P) (hp : lt <+: lead) :
    ∃ out, emptyResult time loc = .ok (lead ++ [3], out) ∧ Shows lead out (fun idx => zeroAt (T (idx.take lt.length))) := by
  obtain ⟨rest, rfl⟩ := hp
  set z : X ℝ → Option ℝ := fun t => match t with | .nan => none | _ => some 0 with hz
  have hout : (((indices lt).map T).flatMap (fun t => List.replicate ((rest ++ [3]).prod) (z t))) =
      (indices (lt ++ (rest ++ [3]))).map (fun j => z (T (j.take lt.length))) := by
    rw [indices_append, List.map_flatMap, List.flatMap_map]
    refine congrArg List.flatten (List.map_congr_left fun i hi => ?_)
    have hil := index_length (mem_indices.mp hi)
    rw [List.map_map, ← indices_length, ← List.map_const']
    refine List.map_congr_left fun j _ => ?_
    simp [← hil]
  refine ⟨((indices lt).map T).flatMap (fun t => List.replicate ((rest ++ [3]).prod) (z t)), ?_, ?_, ?_⟩
  · unfold emptyResult
    simp only [ht.dim, hx.dim, nd_items ht, called_ok, except_ok_bind]
    have hs : (if lt.length + 1 > (lt ++ rest ++ [3]).length then lt ++ [3] else lt ++ rest ++ [3]) = lt ++ (rest ++ [3]) := by
      rw [if_neg (by simp), List.append_assoc]
    rw [hs, if_pos (List.take_left ..)]
    simp only [List.append_assoc, List.drop_left]
    refine congrArg (fun f => Except.ok (lt ++ (rest ++ [3]), List.flatMap f ((indices lt).map T))) (funext fun t => ?_)
    cases t <;> rfl
  · rw [hout, List.length_map, indices_length, List.append_assoc]
  · intro idx hi k
    rw [hout, ← List.append_assoc, List.getElem?_map, indices_rank (vector_index hi k)]
    have hl : lt.length ≤ idx.length := by rw [index_length hi]; simp
    simp only [Option.map_some, List.take_append_of_le_length hl]
    cases T (idx.take lt.length) <;> fin_cases k <;> rfl

/-! ### Rotation and scale -/

theorem geod_nan (r : Option (V3 ℝ)) (d : ℝ) :
    vrotSph2geodNan libm (lift3 r) d = lift3 (r.map (fun v => vrotSph2geod libm v d)) := by
  cases r <;> rfl

theorem cart_nan (r : Option (V3 ℝ)) (la lo : ℝ) :
    vrotSph2cartNan libm (lift3 r) la lo = lift3 (r.map (fun v => vrotSph2cart libm v la lo)) := by
  cases r <;> rfl

theorem scale_nan {sc : Scale ℝ} {g : V3 ℝ} (h : BroadScaleOf sc g) (r : Option (V3 ℝ)) :
    scaleNanRow sc (row3 r) = some (row3 (r.map (fun w => scaledBy w g))) := by
  rcases h with (⟨rfl, rfl⟩ | ⟨s, rfl, rfl⟩ | ⟨x, y, z, rfl, rfl⟩) | ⟨s, rfl, rfl⟩ <;> cases r
  · rfl
  · simp [scaleNanRow, row3, scaledBy]
  all_goals rfl

theorem check_scale {sc : Scale ℝ} {g : V3 ℝ} (h : BroadScaleOf sc g) : checkScale sc 3 = .ok () := by
  rcases h with (⟨rfl, rfl⟩ | ⟨s, rfl, rfl⟩ | ⟨x, y, z, rfl, rfl⟩) | ⟨s, rfl, rfl⟩ <;> rfl

theorem scale_result {sc : Scale ℝ} {g : V3 ℝ} (h : BroadScaleOf sc g) {lead : List Nat} {out : List (Option ℝ)}
    {R : List Nat → Option (V3 ℝ)} (hR : Shows lead out R) :
    ∃ out', scaleResult sc (lead ++ [3], out) = .ok (lead ++ [3], out') ∧
      Shows lead out' (fun idx => (R idx).map (fun w => scaledBy w g)) := by
  refine ⟨((indices lead).map (fun idx => row3 ((R idx).map (fun w => scaledBy w g)))).flatten, ?_, shows_flat _ _⟩
  have hrows := rowsOf_flatten 3 ((indices lead).map (fun idx => row3 (R idx))) (by
    intro b hb
    obtain ⟨x, -, rfl⟩ := List.mem_map.mp hb
    rfl)
  rw [List.length_map, indices_length, ← shows_eq hR] at hrows
  unfold scaleResult
  have e1 : (lead ++ [3]).getLastD 0 = 3 := by simp
  have e2 : (lead ++ [3]).dropLast = lead := by simp
  simp only [e1, e2, check_scale h, hrows, except_ok_bind]
  rw [nd_mapM (f := scaleNanRow sc) (g := fun idx => row3 (R idx))
    (h := fun idx => row3 ((R idx).map (fun w => scaledBy w g))) (indices lead) (fun idx _ => scale_nan h _)]
  rfl

/-- The rotated value. -/
noncomputable def rotatedTo (i o : CT) (x s v : V3 ℝ) : V3 ℝ :=
  match o with
  | .geodetic => vrotSph2geod libm v ((if i = .geodetic then x else getFconv libm .spherical .geodetic s).x - s.x)
  | .spherical => v
  | .cartesian => vrotSph2cart libm v s.x s.y

theorem junkNan_len {junk : Nat → List ℝ} (hj : ∀ n, (junk n).length = n) (n : Nat) : (junkNan junk n).length = n := by
  simp [junkNan, hj]

theorem rotate_result (junk : Nat → List ℝ) (hj : ∀ n, (junk n).length = n) {lead : List Nat} (hl : lead.length ≤ 15)
    {loc sph : NdArray ℝ} {P Q : List Nat → V3 ℝ} (hx : VectorsOf loc lead P) (hs : VectorsOf sph lead Q) (i o : CT)
    {out : List (Option ℝ)} {R : List Nat → Option (V3 ℝ)} (hR : Shows lead out R) :
    ∃ out', rotateResult libm junk (code i) (code o) loc sph (lead ++ [3], out) = .ok (lead ++ [3], out') ∧
      Shows lead out' (fun idx => (R idx).map (rotatedTo i o (P idx) (Q idx))) := by
  have htake : ∀ idx, Index lead idx → idx.take lead.length = idx := by
    intro idx hi
    rw [← index_length hi, List.take_length]
  cases o
  · obtain ⟨y, y1, y2⟩ : ∃ y, (if code i = 0 then .ok loc else convertNd libm junk sph 1 0) = Except.ok y ∧
        VectorsOf y lead (fun idx => if i = .geodetic then P idx else getFconv libm .spherical .geodetic (Q idx)) := by
      by_cases h : i = .geodetic
      · subst h
        exact ⟨loc, rfl, by simpa using hx⟩
      · obtain ⟨y, y1, y2⟩ := nd_convert junk hj hl hs .spherical .geodetic
        refine ⟨y, ?_, by simpa [h] using y2⟩
        rw [if_neg (by cases i <;> simp_all [code])]
        exact y1
    have a1 := nd_last y2 0
    have a2 := nd_last hs 0
    obtain ⟨d, d1, d2⟩ := nd_zip (fun a b : ℝ => a - b) (⟨a1.dim, a1.ndim, a1.get⟩ : ItemsOf _ lead _)
      (⟨a2.dim, a2.ndim, a2.get⟩ : ItemsOf _ lead _) (.inr rfl) (.inr rfl) (.inl rfl)
    obtain ⟨out', o1, o2, o3⟩ := (vrot1_arr (vrotSph2geodNan libm) (junkNan junk) (junkNan_len hj)
      (newArray (lead ++ [3]) out) d lead lead hl _ _ (shows_vectors hR) (⟨d2.dim, d2.ndim, d2.get⟩ : ScalarsOf _ lead _)).1
      (.inr rfl)
    refine ⟨out', ?_, o2, fun idx hi k => ?_⟩
    · unfold rotateResult
      have d1' : zipNd (fun a b => a - b) (lastIndex y 0) (lastIndex sph 0) = .ok d := d1
      rw [if_pos (show code CT.geodetic = 0 from rfl)]
      by_cases hc : code i = 0
      · rw [if_pos hc] at y1 ⊢
        cases y1
        simp only [except_ok_bind, d1', o1]
      · rw [if_neg hc] at y1 ⊢
        simp only [y1, except_ok_bind, d1', o1]
    · rw [o3 idx hi k, htake idx hi]
      simp only [htake idx hi]
      rw [geod_nan, comp_lift3]
      rfl
  · refine ⟨out, rfl, hR.1, fun idx hi k => ?_⟩
    rw [hR.2 idx hi k]
    show _ = some (((R idx).map (rotatedTo i .spherical (P idx) (Q idx))).map (comp · k))
    cases R idx <;> rfl
  · obtain ⟨out', o1, o2, o3⟩ := (C49_vrot (vrotSph2cartNan libm) (junkNan junk) (junkNan_len hj)
      (newArray (lead ++ [3]) out) (lastIndex sph 0) (lastIndex sph 1) lead lead lead hl _ _ _ (shows_vectors hR)
      (nd_last hs 0) (nd_last hs 1)).1 (.inr rfl) (.inr rfl)
    refine ⟨out', o1, o2, fun idx hi k => ?_⟩
    rw [o3 idx hi k, htake idx hi, cart_nan, comp_lift3]
    rfl

/-- Converted arrays: new ones are contiguous. -/
theorem nd_convert_last (junk : Nat → List ℝ) (hj : ∀ n, (junk n).length = n) {x : NdArray ℝ} {lead : List Nat}
    (hl : lead.length ≤ 15) {P : List Nat → V3 ℝ} (hx : VectorsOf x lead P) (i o : CT) :
    ∃ y, convertNd libm junk x (code i) (code o) = .ok y ∧ VectorsOf y lead (fun idx => getFconv libm i o (P idx)) ∧
      (x.arr.stride.getLast? = some 1 → y.arr.stride.getLast? = some 1) := by
  obtain ⟨y, y1, y2⟩ := nd_convert junk hj hl hx i o
  refine ⟨y, y1, y2, ?_⟩
  by_cases hio : i = o
  · subst hio
    have : convertNd libm junk x (code i) (code i) = .ok x := by
      unfold convertNd
      rw [C49_convert_alias junk x lead hl P hx i]
      rfl
    rw [this] at y1
    cases y1
    exact id
  · obtain ⟨data, h1, -, -⟩ := C49_convert junk hj x lead hl P hx i o hio
    have : convertNd libm junk x (code i) (code o) = .ok (newArray (lead ++ [3]) data) := by
      unfold convertNd
      rw [h1]
      rfl
    rw [this] at y1
    cases y1
    intro _
    simp only [newArray, contiguous]
    clear hx hl y2 h1 this
    induction lead with
    | nil => simp [cstrides]
    | cons n l ih =>
      rw [List.cons_append, cstrides, List.getLast?_cons, ih]
      rfl

/-! ### Frames -/

/-- Cartesian positions converted to geodetic coordinates by way of the spherical ones. -/
theorem geod_of_sph {i : CT} (hi : i ≠ .geodetic) {x : V3 ℝ} (h : Pos i x) :
    getFconv libm .spherical .geodetic (getFconv libm i .spherical x) = getFconv libm i .geodetic x := by
  cases i
  · exact absurd rfl hi
  · rfl
  · have hp := inner_pos h
    have hq : 0 < norm2d libm x.x x.y * norm2d libm x.x x.y + x.z * x.z := by
      rw [norm2d_eq, Real.mul_self_sqrt (add_nonneg (mul_self_nonneg _) (mul_self_nonneg _))]
      exact hp
    have e1 := sin_atan2 x.z (norm2d libm x.x x.y)
    have e2 := cos_atan2 x.z (norm2d libm x.x x.y)
    rw [← norm2d_eq, ← norm3d_norm2d] at e1 e2
    have e3 := arcsin_atan2 (norm2d_nonneg x.x x.y) hq
    rw [← norm3d_norm2d] at e3
    show sph2geodetic libm (norm3d libm x.x x.y x.z)
      (dg2rad libm * (Real.arcsin (x.z / norm3d libm x.x x.y x.z) * rad2dg libm))
      (dg2rad libm * (atan2 x.y x.x * rad2dg libm)) wgs84A wgs84Eps2 = cart2geodetic libm x.x x.y x.z wgs84A wgs84Eps2
    rw [rad_deg', rad_deg']
    show (⟨rad2dg libm * (geoc2geod libm (norm3d libm x.x x.y x.z * Real.cos _) (norm3d libm x.x x.y x.z * Real.sin _) wgs84A
      wgs84Eps2).1, _, (geoc2geod libm (norm3d libm x.x x.y x.z * Real.cos _) (norm3d libm x.x x.y x.z * Real.sin _) wgs84A
      wgs84Eps2).2⟩ : V3 ℝ) = _
    rw [e3, e1, e2]
    rfl

theorem toCart_rotated {i o : CT} {x : V3 ℝ} (h : Pos i x) (v : V3 ℝ) :
    toCart o (getFconv libm i o x) (rotatedTo i o x (getFconv libm i .spherical x) v) =
      toCart .spherical (getFconv libm i .spherical x) v := by
  cases o
  · have e : (if i = .geodetic then x else getFconv libm .spherical .geodetic (getFconv libm i .spherical x)) =
        getFconv libm i .geodetic x := by
      by_cases hi : i = .geodetic
      · subst hi
        rfl
      · rw [if_neg hi, geod_of_sph hi h]
    simp only [rotatedTo]
    rw [e]
    have hl := geod_lon i x
    simp only [toCart, vrotSph2geod, vrotSph2cart, hl, rot2d, libm_sin, libm_cos, neg_mul, mul_sub, neg_sub]
    generalize dg2rad libm * (getFconv libm i .geodetic x).x = G
    generalize dg2rad libm * (getFconv libm i .spherical x).x = S
    have h1 := Real.sin_sub S G
    have h2 := Real.cos_sub S G
    have h3 := Real.sin_sq_add_cos_sq G
    rw [show -G - -S = S - G by ring, h1, h2]
    refine V3.ext' ?_ ?_ ?_ <;> dsimp only
    · linear_combination (Real.cos (dg2rad libm * (getFconv libm i .spherical x).y) *
        (v.z * Real.cos S - v.x * Real.sin S)) * h3
    · linear_combination (Real.sin (dg2rad libm * (getFconv libm i .spherical x).y) *
        (v.z * Real.cos S - v.x * Real.sin S)) * h3
    · linear_combination (v.z * Real.sin S + v.x * Real.cos S) * h3
  · rfl
  · rfl

theorem toCart_add (s a b : V3 ℝ) :
    toCart .spherical s (vadd a b) = vadd (toCart .spherical s a) (toCart .spherical s b) := by
  simp only [toCart, vrotSph2cart, vadd, rot2d]
  refine V3.ext' ?_ ?_ ?_ <;> dsimp only <;> ring

/-! ### What the members give -/

/-- The value `r` at the time `tx` of a model with the coefficients `tree`, where `Field sets t v` says that `v` is the
field of the given sets: as in C75 and C77. -/
def TreeAt (tree : ModelEval.Tree (Ext ℝ) (Sparse ℝ)) (Field : List (Sparse ℝ) → ℝ → V3 ℝ → Prop) (tx : X ℝ)
    (r : Option (V3 ℝ)) : Prop :=
  (tx = .nan → r = none) ∧
  (∀ t, tx = .fin t → (∀ p ∈ spans tree, p.1 ≠ at_ t ∧ p.2 ≠ at_ t) →
    ((∀ sets, ¬ Active (fun x => x ≤ at_ t) tree sets) → r = none) ∧
    ∀ sets, Active (fun x => x ≤ at_ t) tree sets → ∃ v, r = some v ∧ Field sets t v) ∧
  ∀ t, tx = .fin t → (r = none ∧ (NoInstants tree → ∀ sets, ¬ ValidAt (at_ t) tree sets)) ∨
    ∃ sets, ValidAt (at_ t) tree sets ∧ ∃ v, r = some v ∧ Field sets t v

/-- The item of the optional argument at the index. -/
def Given {A : Type} (a : Option (NdArray A)) (lead idx : List Nat) (v : Option A) : Prop :=
  ∃ F, OptItems a lead F ∧ F idx = v

/-- Parameters of the component override the keyword arguments of the call. -/
structure Merged (args params merged : Args ℝ) : Prop where
  minDegree : merged.minDegree = if params.minDegree = none then args.minDegree else params.minDegree
  maxDegree : merged.maxDegree = if params.maxDegree = none then args.maxDegree else params.maxDegree
  f107 : (params.f107 = none → merged.f107 = args.f107) ∧ ∀ v, params.f107 = some v → merged.f107 = some v
  latSol : (params.latSol = none → merged.latSol = args.latSol) ∧ ∀ v, params.latSol = some v → merged.latSol = some v
  lonSol : (params.lonSol = none → merged.lonSol = args.lonSol) ∧ ∀ v, params.lonSol = some v → merged.lonSol = some v

/-- The degrees meant by the arguments: no limits (-1) if not given. -/
structure OptionsOf (args : Args ℝ) (sc : Scale ℝ) (opt : Options ℝ) : Prop where
  scale : opt.scale = sc
  minDegree : (args.minDegree = none → opt.minDegree = -1) ∧ ∀ n, args.minDegree = some n → opt.minDegree = n
  maxDegree : (args.maxDegree = none → opt.maxDegree = -1) ∧ ∀ n, args.maxDegree = some n → opt.maxDegree = n

/-- Sum of vectors. -/
noncomputable def vsum (l : List (V3 ℝ)) : V3 ℝ :=
  ⟨(l.map V3.x).sum, (l.map V3.y).sum, (l.map V3.z).sum⟩

/-- `r` is the sum of the values `rs` of the components, given in the spherical coordinates at `s`, in the coordinates
of the output at the position `x`, times the scale: NaN if one of them is NaN, or if there are none and the time is NaN. -/
def SumAt (tx : X ℝ) (i o : CT) (g x s : V3 ℝ) (rs : List (Option (V3 ℝ))) (r : Option (V3 ℝ)) : Prop :=
  (none ∈ rs ∨ (rs = [] ∧ tx = .nan) → r = none) ∧
  ∀ vs : List (V3 ℝ), rs = vs.map some → ¬ (rs = [] ∧ tx = .nan) →
    ∃ v, r = some v ∧ (Pos i x → ∃ q w, convert libm x (code i) (code o) = some q ∧ v = scaledBy w g ∧
      toCart o q w = vsum (vs.map (toCart .spherical s)))

mutual
/-- The value `r` of a model at the index `idx` of arrays with the dimensions `lead`, for the time `tx`, the position
`x` in the coordinates `i`, the output in the coordinates `o`, the scale `sc` and the arguments `args`. -/
inductive ValueAt (lead idx : List Nat) (tx : X ℝ) :
    Member ℝ → CT → CT → Scale ℝ → Args ℝ → V3 ℝ → Option (V3 ℝ) → Prop
  | sh {tree : ModelEval.Tree (Ext ℝ) (Sparse ℝ)} {i o : CT} {sc : Scale ℝ} {args : Args ℝ} {x : V3 ℝ} {r : Option (V3 ℝ)}
      (opt : Options ℝ) (int : Bool) (g : V3 ℝ) (hopt : OptionsOf args sc opt)
      (hint : ∀ sets, Selects tree sets → ∃ N, GoodSets sets opt int N) (hg : ScaleOf sc g)
      (h : TreeAt tree (fun sets t v => Pos i x → (∀ s, convert libm x (code i) 1 = some s →
          1 / 10 ^ 10 ≤ |Real.cos (s.x * (Real.pi / 180))|) →
        ∃ N, MaxDegree (keptIndices opt sets) N ∧ IsField sets opt int N g i o t x v) tx r) :
      ValueAt lead idx tx (.sh tree) i o sc args x r
  | dipole {tree : ModelEval.Tree (Ext ℝ) (Sparse ℝ)} {latN lonN : ℝ} {i o : CT} {sc : Scale ℝ} {args : Args ℝ} {x : V3 ℝ}
      {r : Option (V3 ℝ)} (opt : Options ℝ) (int : Bool) (g : V3 ℝ) (A : M3 ℝ) (hA : ToDipoleFrame latN lonN A)
      (hopt : OptionsOf args sc opt) (hint : ∀ sets, Selects tree sets → ∃ N, GoodSets sets opt int N)
      (hg : BroadScaleOf sc g)
      (h : TreeAt tree (fun sets t v => Pos i x → (∀ c s, convert libm x (code i) 2 = some c →
          convert libm (dot c A) 2 1 = some s →
          1 / 10 ^ 10 ≤ |Real.cos (s.x * (Real.pi / 180))| ∨ Real.cos (s.x * (Real.pi / 180)) = 0) →
        ∃ N, MaxDegree (keptIndices opt sets) N ∧ DipoleField A (entriesAt opt sets t) int N g i o x v) tx r) :
      ValueAt lead idx tx (.dipole tree latN lonN) i o sc args x r
  | mio {m : MioModel ℝ} {i o : CT} {sc : Scale ℝ} {args : Args ℝ} {x : V3 ℝ} {r : Option (V3 ℝ)} (opt : Options ℝ)
      (N : Nat) (g : V3 ℝ) (A : M3 ℝ) (F : Option (Option ℝ)) (la lo : Option ℝ) (hA : ToDipoleFrame m.latNgp m.lonNgp A)
      (hopt : OptionsOf args sc opt) (hN : GoodMio m.coef opt N) (hg : BroadScaleOf sc g)
      (hF : Given args.f107 lead idx F) (hla : Given args.latSol lead idx la) (hlo : Given args.lonSol lead idx lo)
      (h : MioAt m A opt N i o g tx F la lo x (fun k => some (r.map (comp · k)))) :
      ValueAt lead idx tx (.mio m) i o sc args x r
  | primary {below above : MioModel ℝ} {height radius : ℝ} {i o : CT} {sc : Scale ℝ} {args : Args ℝ} {x : V3 ℝ}
      {r : Option (V3 ℝ)} (s : V3 ℝ) (hs : convert libm x (code i) 1 = some s)
      (hb : s.z ≤ radius + height → ValueAt lead idx tx (.mio below) .spherical o sc args s r)
      (ha : radius + height < s.z → ValueAt lead idx tx (.mio above) .spherical o sc args s r) :
      ValueAt lead idx tx (.primary below above height radius) i o sc args x r
  | composed {items : List (Member ℝ × Scale ℝ × Args ℝ)} {i o : CT} {sc : Scale ℝ} {args : Args ℝ} {x : V3 ℝ}
      {r : Option (V3 ℝ)} (s g : V3 ℝ) (rs : List (Option (V3 ℝ))) (hs : convert libm x (code i) 1 = some s)
      (hrs : ValuesAt lead idx tx items args s rs) (hg : BroadScaleOf sc g) (h : SumAt tx i o g x s rs r) :
      ValueAt lead idx tx (.composed items) i o sc args x r

/-- The values `rs` of the components, all in spherical coordinates, each with its scale and its parameters. -/
inductive ValuesAt (lead idx : List Nat) (tx : X ℝ) :
    List (Member ℝ × Scale ℝ × Args ℝ) → Args ℝ → V3 ℝ → List (Option (V3 ℝ)) → Prop
  | nil {args : Args ℝ} {s : V3 ℝ} : ValuesAt lead idx tx [] args s []
  | cons {m : Member ℝ} {sc : Scale ℝ} {params args merged : Args ℝ} {rest : List (Member ℝ × Scale ℝ × Args ℝ)} {s : V3 ℝ}
      {r : Option (V3 ℝ)} {rs : List (Option (V3 ℝ))} (hm : Merged args params merged)
      (hr : ValueAt lead idx tx m .spherical .spherical sc merged s r) (hrs : ValuesAt lead idx tx rest args s rs) :
      ValuesAt lead idx tx ((m, sc, params) :: rest) args s (r :: rs)
end

/-- The arguments of MIO models have the dimensions of the points or none; F10.7 has none for a single time. -/
def GoodArgs (lt lead : List Nat) (args : Args ℝ) : Prop :=
  (∃ F, OptItems args.f107 lead F) ∧ (lt = [] → ∀ f, args.f107 = some f → f.arr.dim = []) ∧
    (∃ F, OptItems args.latSol lead F) ∧ ∃ F, OptItems args.lonSol lead F

mutual
/-- Models which can be evaluated, for times of the dimensions `lt` and points of the dimensions `lead`. -/
def GoodMember (lt lead : List Nat) : Member ℝ → Scale ℝ → Args ℝ → Prop
  | .sh tree, sc, args => (∃ g, ScaleOf sc g) ∧
    (∃ int, ∀ opt, OptionsOf args sc opt → ∀ sets, Selects tree sets → ∃ N, GoodSets sets opt int N) ∧
    (lt = [] → Regular tree) ∧ (lt ≠ [] → Ordered tree)
  | .dipole tree _ _, sc, args => (∃ g, BroadScaleOf sc g) ∧
    (∃ int, ∀ opt, OptionsOf args sc opt → ∀ sets, Selects tree sets → ∃ N, GoodSets sets opt int N) ∧
    (lt = [] → Regular tree) ∧ (lt ≠ [] → Ordered tree)
  | .mio m, sc, args => (∃ g, BroadScaleOf sc g) ∧ (∀ opt, OptionsOf args sc opt → ∃ N, GoodMio m.coef opt N) ∧
    GoodArgs lt lead args
  | .primary below above _ _, sc, args => (∃ g, BroadScaleOf sc g) ∧
    (∀ opt, OptionsOf args sc opt → ∃ N, GoodMio below.coef opt N) ∧
    (∀ opt, OptionsOf args sc opt → ∃ N, GoodMio above.coef opt N) ∧ GoodArgs lt lead args ∧ (lt = [] ∨ lt = lead)
  | .composed items, sc, args => (∃ g, BroadScaleOf sc g) ∧ GoodItems lt lead items args

/-- All components can be evaluated. -/
def GoodItems (lt lead : List Nat) : List (Member ℝ × Scale ℝ × Args ℝ) → Args ℝ → Prop
  | [], _ => True
  | (m, sc, params) :: rest, args => (∀ merged, Merged args params merged → GoodMember lt lead m sc merged) ∧
    GoodItems lt lead rest args
end

/-! ### Proofs -/

theorem value_exists {item : Fin 3 → Option (Option ℝ)}
    (h : (∀ k, item k = some none) ∨ ∃ v : V3 ℝ, ∀ k, item k = some (some (comp v k))) :
    ∃ r : Option (V3 ℝ), ∀ k, item k = some (r.map (comp · k)) := by
  rcases h with h | ⟨v, h⟩
  · exact ⟨none, h⟩
  · exact ⟨some v, h⟩

theorem value_none {item : Fin 3 → Option (Option ℝ)} {r : Option (V3 ℝ)} (hr : ∀ k, item k = some (r.map (comp · k)))
    (h : ∀ k, item k = some none) : r = none := by
  cases r with
  | none => rfl
  | some v =>
    have := (hr 0).symm.trans (h 0)
    simp at this

theorem value_some {item : Fin 3 → Option (Option ℝ)} {r : Option (V3 ℝ)} (hr : ∀ k, item k = some (r.map (comp · k)))
    {v : V3 ℝ} (h : ∀ k, item k = some (some (comp v k))) : r = some v := by
  cases r with
  | none =>
    have := (hr 0).symm.trans (h 0)
    simp at this
  | some w =>
    have e : ∀ k, comp w k = comp v k := by
      intro k
      have := (hr k).symm.trans (h k)
      simpa using this
    exact congrArg some (V3.ext' (e 0) (e 1) (e 2))

theorem tree_value {item : Fin 3 → Option (Option ℝ)} {tree : ModelEval.Tree (Ext ℝ) (Sparse ℝ)}
    {Field : List (Sparse ℝ) → ℝ → V3 ℝ → Prop} {tx : X ℝ} (hinf : tx ≠ .ninf ∧ tx ≠ .pinf)
    (h1 : tx = .nan → ∀ k, item k = some none)
    (h2 : ∀ t, tx = .fin t → (∀ p ∈ spans tree, p.1 ≠ at_ t ∧ p.2 ≠ at_ t) →
      ((∀ sets, ¬ Active (fun x => x ≤ at_ t) tree sets) → ∀ k, item k = some none) ∧
      ∀ sets, Active (fun x => x ≤ at_ t) tree sets → ∃ v : V3 ℝ, (∀ k, item k = some (some (comp v k))) ∧ Field sets t v)
    (h3 : ∀ t, tx = .fin t → ((∀ k, item k = some none) ∧ (NoInstants tree → ∀ sets, ¬ ValidAt (at_ t) tree sets)) ∨
      ∃ sets, ValidAt (at_ t) tree sets ∧ ∃ v : V3 ℝ, (∀ k, item k = some (some (comp v k))) ∧ Field sets t v) :
    ∃ r : Option (V3 ℝ), (∀ k, item k = some (r.map (comp · k))) ∧ TreeAt tree Field tx r := by
  obtain ⟨r, hr⟩ : ∃ r : Option (V3 ℝ), ∀ k, item k = some (r.map (comp · k)) := by
    apply value_exists
    match htx : tx with
    | .nan => exact .inl (h1 rfl)
    | .ninf => exact absurd rfl hinf.1
    | .pinf => exact absurd rfl hinf.2
    | .fin t =>
      rcases h3 t rfl with ⟨h, -⟩ | ⟨sets, -, v, h, -⟩
      · exact .inl h
      · exact .inr ⟨v, h⟩
  refine ⟨r, hr, fun h => value_none hr (h1 h), fun t ht hends => ?_, fun t ht => ?_⟩
  · obtain ⟨a, b⟩ := h2 t ht hends
    refine ⟨fun h => value_none hr (a h), fun sets hs => ?_⟩
    obtain ⟨v, c, d⟩ := b sets hs
    exact ⟨v, value_some hr c, d⟩
  · rcases h3 t ht with ⟨h, h'⟩ | ⟨sets, hs, v, c, d⟩
    · exact .inl ⟨value_none hr h, h'⟩
    · exact .inr ⟨sets, hs, v, value_some hr c, d⟩

theorem mio_value {m : MioModel ℝ} {A : M3 ℝ} {opt : Options ℝ} {N : Nat} {i o : CT} {g : V3 ℝ} {tx : X ℝ}
    {F : Option (Option ℝ)} {la lo : Option ℝ} {x : V3 ℝ} {item : Fin 3 → Option (Option ℝ)}
    (h : MioAt m A opt N i o g tx F la lo x item) :
    ∃ r : Option (V3 ℝ), (∀ k, item k = some (r.map (comp · k))) ∧
      MioAt m A opt N i o g tx F la lo x (fun k => some (r.map (comp · k))) := by
  obtain ⟨r, hr⟩ : ∃ r : Option (V3 ℝ), ∀ k, item k = some (r.map (comp · k)) := by
    apply value_exists
    by_cases hw : Within m.coef.vs m.coef.ve tx
    · match F, h with
      | none, h =>
        obtain ⟨-, -, v, hv, -⟩ := h.2 hw 1 (.inl ⟨rfl, rfl⟩)
        exact .inr ⟨v, hv⟩
      | some none, h => exact .inl (h.1 (.inr rfl))
      | some (some f), h =>
        obtain ⟨-, -, v, hv, -⟩ := h.2 hw _ (.inr ⟨f, rfl, rfl⟩)
        exact .inr ⟨v, hv⟩
    · exact .inl (h.1 (.inl hw))
  refine ⟨r, hr, ?_⟩
  have : item = fun k => some (r.map (comp · k)) := funext hr
  rwa [this] at h

theorem options_of (args : Args ℝ) (sc : Scale ℝ) : OptionsOf args sc (args.options sc) := by
  refine ⟨rfl, ⟨fun h => ?_, fun n h => ?_⟩, ⟨fun h => ?_, fun n h => ?_⟩⟩ <;> simp [Args.options, h]

theorem merged_update (args params : Args ℝ) : Merged args params (args.update params) := by
  refine ⟨?_, ?_, ⟨fun h => ?_, fun v h => ?_⟩, ⟨fun h => ?_, fun v h => ?_⟩, ⟨fun h => ?_, fun v h => ?_⟩⟩
  · cases h : params.minDegree <;> simp [Args.update, h]
  · cases h : params.maxDegree <;> simp [Args.update, h]
  all_goals simp [Args.update, h]

/-- The sum of the values of the components. -/
noncomputable def sumTotal (tx : X ℝ) : List (Option (V3 ℝ)) → Option (V3 ℝ)
  | [] => zeroAt tx
  | r :: rs => rs.foldl addV r

theorem sumFold_none : ∀ (rs : List (Option (V3 ℝ))) (r : Option (V3 ℝ)), r = none ∨ none ∈ rs → rs.foldl addV r = none
  | [], r, h => by simpa using h
  | a :: rs, r, h => by
    rw [List.foldl_cons]
    refine sumFold_none rs _ ?_
    rcases h with rfl | h
    · exact .inl rfl
    · rcases List.mem_cons.mp h with rfl | h
      · cases r <;> exact .inl rfl
      · exact .inr h

theorem sumFold_some : ∀ (vs : List (V3 ℝ)) (v : V3 ℝ), (vs.map some).foldl addV (some v) = some (vadd v (vsum vs))
  | [], v => by simp [vsum, vadd]
  | a :: vs, v => by
    rw [List.map_cons, List.foldl_cons, addV, sumFold_some vs]
    refine congrArg some (V3.ext' ?_ ?_ ?_) <;> simp [vsum, vadd, add_assoc]

theorem sumTotal_none {tx : X ℝ} {rs : List (Option (V3 ℝ))} (h : none ∈ rs ∨ (rs = [] ∧ tx = .nan)) : sumTotal tx rs = none := by
  rcases h with h | ⟨rfl, rfl⟩
  · match rs, h with
    | r :: rs, h =>
      refine sumFold_none rs r ?_
      rcases List.mem_cons.mp h with h | h
      · exact .inl h.symm
      · exact .inr h
  · rfl

theorem sumTotal_some {tx : X ℝ} {vs : List (V3 ℝ)} (h : ¬ (vs.map some = [] ∧ tx = .nan)) :
    sumTotal tx (vs.map some) = some (vsum vs) := by
  match vs, h with
  | [], h =>
    cases tx
    · exact absurd ⟨rfl, rfl⟩ h
    all_goals simp [sumTotal, zeroAt, vsum]
  | v :: vs, _ =>
    rw [List.map_cons, sumTotal, sumFold_some]
    refine congrArg some (V3.ext' ?_ ?_ ?_) <;> simp [vsum, vadd]

theorem toCart_sum (s : V3 ℝ) : ∀ vs : List (V3 ℝ), toCart .spherical s (vsum vs) = vsum (vs.map (toCart .spherical s))
  | [] => by refine V3.ext' ?_ ?_ ?_ <;> simp [toCart, vrotSph2cart, vsum, rot2d]
  | v :: vs => by
    have h : ∀ (a : V3 ℝ) (l : List (V3 ℝ)), vsum (a :: l) = vadd a (vsum l) := fun a l => by simp [vsum, vadd]
    rw [List.map_cons, h, h, toCart_add, toCart_sum s vs]

theorem sum_at (tx : X ℝ) {i o : CT} (g x : V3 ℝ) (rs : List (Option (V3 ℝ))) :
    SumAt tx i o g x (getFconv libm i .spherical x) rs
      (((sumTotal tx rs).map (rotatedTo i o x (getFconv libm i .spherical x))).map (fun w => scaledBy w g)) := by
  refine ⟨fun h => by rw [sumTotal_none h]; rfl, ?_⟩
  rintro vs rfl h
  refine ⟨scaledBy (rotatedTo i o x (getFconv libm i .spherical x) (vsum vs)) g, by rw [sumTotal_some h]; rfl, fun hp =>
    ⟨getFconv libm i o x, _, convert_code i o x, rfl, ?_⟩⟩
  rw [toCart_rotated hp, toCart_sum]

section
variable (alloc : Nat → Mem ℝ) (ha : ∀ N, MemOk (alloc N) N) (junk : Nat → List ℝ) (hj : ∀ n, (junk n).length = n)
  (junkX : Nat → List (X ℝ)) (hjX : ∀ n, (junkX n).length = n) (junk2 : Nat → ℝ × ℝ) (year : Int)
  (time : NdArray (X ℝ)) (lt lead : List Nat) (T : List Nat → X ℝ) (ht : ItemsOf time lt T) (hp : lt <+: lead)
  (hT : ∀ idx, Index lt idx → T idx ≠ .ninf ∧ T idx ≠ .pinf) (hl : lead.length ≤ 14)
include ha hj hjX ht hp hT hl

theorem sh_member (tree : ModelEval.Tree (Ext ℝ) (Sparse ℝ)) {loc : NdArray ℝ} {P : List Nat → V3 ℝ} (hx : VectorsOf loc lead P)
    (h1 : lt = [] → loc.arr.stride.getLast? = some 1) (i o : CT) (sc : Scale ℝ) (args : Args ℝ)
    (h : GoodMember lt lead (.sh tree) sc args) :
    ∃ out R, evalMember libm (mioEnv alloc junk junkX junk2 year) (.sh tree) time loc (code i) (code o) sc args =
        .ok (lead ++ [3], out) ∧ Shows lead out R ∧
      ∀ idx, Index lead idx → ValueAt lead idx (T (idx.take lt.length)) (.sh tree) i o sc args (P idx) (R idx) := by
  rw [GoodMember] at h
  obtain ⟨⟨g, hg⟩, ⟨int, hint⟩, hreg, hord⟩ := h
  have hopt := options_of args sc
  obtain ⟨out, e1, e2, e3⟩ := C75_eval_partial alloc ha junk hj junkX hjX year tree (args.options sc) int (hint _ hopt) time loc
    lt lead T P ht hx hp hreg hord hT h1 i o g hg
  have : ∀ idx, Index lead idx → ∃ r : Option (V3 ℝ), (∀ k : Fin 3, out[rank (lead ++ [3]) (idx ++ [k.val])]? = some (r.map (comp · k))) ∧
      ValueAt lead idx (T (idx.take lt.length)) (.sh tree) i o sc args (P idx) r := by
    intro idx hi
    obtain ⟨a, b, c⟩ := e3 idx hi
    obtain ⟨r, r1, r2⟩ := tree_value (hT _ (index_take hp hi)) a b c
    exact ⟨r, r1, .sh _ int g hopt (hint _ hopt) hg r2⟩
  choose! R hR using this
  refine ⟨out, R, ?_, ⟨e2, fun idx hi => (hR idx hi).1⟩, fun idx hi => (hR idx hi).2⟩
  rw [evalMember]
  have : evalCoefficients (mioEnv alloc junk junkX junk2 year).toEnv tree time loc (code i) (code o) (args.options sc) = _ := e1
  rw [this]
  rfl

theorem dipole_member (tree : ModelEval.Tree (Ext ℝ) (Sparse ℝ)) (latN lonN : ℝ) {loc : NdArray ℝ} {P : List Nat → V3 ℝ}
    (hx : VectorsOf loc lead P) (i o : CT) (sc : Scale ℝ) (args : Args ℝ)
    (h : GoodMember lt lead (.dipole tree latN lonN) sc args) :
    ∃ out R, evalMember libm (mioEnv alloc junk junkX junk2 year) (.dipole tree latN lonN) time loc (code i) (code o) sc args =
        .ok (lead ++ [3], out) ∧ Shows lead out R ∧
      ∀ idx, Index lead idx →
        ValueAt lead idx (T (idx.take lt.length)) (.dipole tree latN lonN) i o sc args (P idx) (R idx) := by
  rw [GoodMember] at h
  obtain ⟨⟨g, hg⟩, ⟨int, hint⟩, hreg, hord⟩ := h
  have hopt := options_of args sc
  obtain ⟨A, hA, main⟩ := C77_eval_partial latN lonN
  obtain ⟨out, e1, e2, e3⟩ := main alloc ha junk hj junkX hjX year tree (args.options sc) int (hint _ hopt) time loc
    lt lead T P ht hx hp hreg hord hT (fun _ => by omega) i o g hg
  have : ∀ idx, Index lead idx → ∃ r : Option (V3 ℝ), (∀ k : Fin 3, out[rank (lead ++ [3]) (idx ++ [k.val])]? = some (r.map (comp · k))) ∧
      ValueAt lead idx (T (idx.take lt.length)) (.dipole tree latN lonN) i o sc args (P idx) r := by
    intro idx hi
    obtain ⟨a, b, c⟩ := e3 idx hi
    obtain ⟨r, r1, r2⟩ := tree_value (hT _ (index_take hp hi)) a b c
    exact ⟨r, r1, .dipole _ int g A hA hopt (hint _ hopt) hg r2⟩
  choose! R hR using this
  refine ⟨out, R, ?_, ⟨e2, fun idx hi => (hR idx hi).1⟩, fun idx hi => (hR idx hi).2⟩
  rw [evalMember]
  have : evalDipole libm (mioEnv alloc junk junkX junk2 year).toEnv latN lonN tree time loc (code i) (code o)
    (args.options sc) = _ := e1
  rw [this]
  rfl

theorem mio_member (m : MioModel ℝ) {loc : NdArray ℝ} {P : List Nat → V3 ℝ}
    (hx : VectorsOf loc lead P) (i o : CT) (sc : Scale ℝ) (args : Args ℝ)
    (h : GoodMember lt lead (.mio m) sc args) :
    ∃ out R, evalMember libm (mioEnv alloc junk junkX junk2 year) (.mio m) time loc (code i) (code o) sc args =
        .ok (lead ++ [3], out) ∧ Shows lead out R ∧
      ∀ idx, Index lead idx → ValueAt lead idx (T (idx.take lt.length)) (.mio m) i o sc args (P idx) (R idx) := by
  rw [GoodMember] at h
  obtain ⟨⟨g, hg⟩, hN, ⟨F, hF⟩, hF0, ⟨LA, hLA⟩, ⟨LO, hLO⟩⟩ := h
  have hopt := options_of args sc
  obtain ⟨N, hN⟩ := hN _ hopt
  obtain ⟨A, hA, main⟩ := C79_eval_partial m
  obtain ⟨out, e1, e2, e3⟩ := main alloc ha junk hj junkX hjX junk2 year (args.options sc) N hN time loc
    lt lead T P ht hx hp hT (fun _ => hl) args.f107 F hF hF0 args.latSol args.lonSol LA LO hLA hLO i o g hg
  have : ∀ idx, Index lead idx → ∃ r : Option (V3 ℝ), (∀ k : Fin 3, out[rank (lead ++ [3]) (idx ++ [k.val])]? = some (r.map (comp · k))) ∧
      ValueAt lead idx (T (idx.take lt.length)) (.mio m) i o sc args (P idx) r := by
    intro idx hi
    obtain ⟨r, r1, r2⟩ := mio_value (e3 idx hi)
    exact ⟨r, r1, .mio _ N g A _ _ _ hA hopt hN hg ⟨F, hF, rfl⟩ ⟨LA, hLA, rfl⟩ ⟨LO, hLO, rfl⟩ r2⟩
  choose! R hR using this
  refine ⟨out, R, ?_, ⟨e2, fun idx hi => (hR idx hi).1⟩, fun idx hi => (hR idx hi).2⟩
  rw [evalMember, e1]

theorem primary_member (below above : MioModel ℝ) (height radius : ℝ) {loc : NdArray ℝ} {P : List Nat → V3 ℝ}
    (hx : VectorsOf loc lead P) (i o : CT) (sc : Scale ℝ) (args : Args ℝ)
    (h : GoodMember lt lead (.primary below above height radius) sc args) :
    ∃ out R, evalMember libm (mioEnv alloc junk junkX junk2 year) (.primary below above height radius) time loc (code i)
        (code o) sc args = .ok (lead ++ [3], out) ∧ Shows lead out R ∧
      ∀ idx, Index lead idx →
        ValueAt lead idx (T (idx.take lt.length)) (.primary below above height radius) i o sc args (P idx) (R idx) := by
  rw [GoodMember] at h
  obtain ⟨⟨g, hg⟩, hNb, hNa, ⟨⟨F, hF⟩, hF0, ⟨LA, hLA⟩, ⟨LO, hLO⟩⟩, hlt⟩ := h
  have hopt := options_of args sc
  obtain ⟨Nb, hNb⟩ := hNb _ hopt
  obtain ⟨Na, hNa⟩ := hNa _ hopt
  obtain ⟨Ab, Aa, hAb, hAa, main⟩ := C79_primary_partial below above
  obtain ⟨rows, e1, e2, e3⟩ := main alloc ha junk hj junkX hjX junk2 year (args.options sc) Nb Na hNb hNa height radius time loc
    lt lead T P ht hx hlt (by omega) hT args.f107 F hF hF0 args.latSol args.lonSol LA LO hLA hLO i o g hg
  have : ∀ idx, Index lead idx → ∃ r : Option (V3 ℝ), rows[rank lead idx]? = some (some (row3 r)) ∧
      ValueAt lead idx (T (idx.take lt.length)) (.primary below above height radius) i o sc args (P idx) r := by
    intro idx hi
    obtain ⟨row, x, h1, h2, h3, h4, h5⟩ := e3 idx hi
    obtain ⟨r, r1, r2⟩ : ∃ r : Option (V3 ℝ), (∀ k : Fin 3, row[k.val]? = some (r.map (comp · k))) ∧
        ValueAt lead idx (T (idx.take lt.length)) (.primary below above height radius) i o sc args (P idx) r := by
      by_cases hz : x.z ≤ radius + height
      · obtain ⟨r, r1, r2⟩ := mio_value (h4 hz)
        exact ⟨r, r1, .primary x h3 (fun _ => .mio _ Nb g Ab _ _ _ hAb hopt hNb hg ⟨F, hF, rfl⟩ ⟨LA, hLA, rfl⟩ ⟨LO, hLO, rfl⟩ r2)
          (fun h => absurd hz (not_le.mpr h))⟩
      · obtain ⟨r, r1, r2⟩ := mio_value (h5 (not_le.mp hz))
        exact ⟨r, r1, .primary x h3 (fun h => absurd h hz)
          (fun _ => .mio _ Na g Aa _ _ _ hAa hopt hNa hg ⟨F, hF, rfl⟩ ⟨LA, hLA, rfl⟩ ⟨LO, hLO, rfl⟩ r2)⟩
    refine ⟨r, ?_, r2⟩
    rw [h1]
    match row, h2 with
    | [a, b, c], _ =>
      have h0 := r1 0
      have h1 := r1 1
      have h2 := r1 2
      simp only [Fin.val_zero, Fin.val_one, Fin.val_two, List.getElem?_cons_zero, List.getElem?_cons_succ,
        Option.some.injEq] at h0 h1 h2
      rw [h0, h1, h2]
      rfl
  choose! R hR using this
  have hrows : rows = (indices lead).map (fun idx => some (row3 (R idx))) :=
    list_of_ranks e2 (fun idx hi => (hR idx hi).1)
  refine ⟨((indices lead).map (fun idx => row3 (R idx))).flatten, R, ?_, shows_flat _ _, fun idx hi => (hR idx hi).2⟩
  rw [evalMember, e1]
  simp only [except_ok_bind]
  show Except.ok (lead ++ [3], filled junk rows) = _
  unfold filled
  rw [hrows, List.flatMap_map]
  rfl

mutual
theorem member_value : ∀ (m : Member ℝ) {loc : NdArray ℝ} {P : List Nat → V3 ℝ}, VectorsOf loc lead P →
    (lt = [] → loc.arr.stride.getLast? = some 1) → ∀ (i o : CT) (sc : Scale ℝ) (args : Args ℝ),
    GoodMember lt lead m sc args →
    ∃ out R, evalMember libm (mioEnv alloc junk junkX junk2 year) m time loc (code i) (code o) sc args =
        .ok (lead ++ [3], out) ∧ Shows lead out R ∧
      ∀ idx, Index lead idx → ValueAt lead idx (T (idx.take lt.length)) m i o sc args (P idx) (R idx)
  | .sh tree, _, _, hx, h1, i, o, sc, args, h =>
    sh_member alloc ha junk hj junkX hjX junk2 year time lt lead T ht hp hT hl tree hx h1 i o sc args h
  | .dipole tree latN lonN, _, _, hx, _, i, o, sc, args, h =>
    dipole_member alloc ha junk hj junkX hjX junk2 year time lt lead T ht hp hT hl tree latN lonN hx i o sc args h
  | .mio m, _, _, hx, _, i, o, sc, args, h =>
    mio_member alloc ha junk hj junkX hjX junk2 year time lt lead T ht hp hT hl m hx i o sc args h
  | .primary below above height radius, _, _, hx, _, i, o, sc, args, h =>
    primary_member alloc ha junk hj junkX hjX junk2 year time lt lead T ht hp hT hl below above height radius hx i o sc args h
  | .composed items, loc, P, hx, h1, i, o, sc, args, h => by
    rw [GoodMember] at h
    obtain ⟨⟨g, hg⟩, hi⟩ := h
    obtain ⟨y, y1, y2, y3⟩ := nd_convert_last junk hj (by omega) hx i .spherical
    obtain ⟨out, R, e1, e2, e3⟩ := items_value items hx y2 (fun h => y3 (h1 h)) args hi
    obtain ⟨out', f1, f2⟩ := rotate_result junk hj (by omega) hx y2 i o e2
    obtain ⟨out'', g1, g2⟩ := scale_result hg f2
    refine ⟨out'', _, ?_, g2, fun idx hidx => ?_⟩
    · rw [evalMember]
      have y1 : convertNd libm (mioEnv alloc junk junkX junk2 year).junk loc (code i) 1 = .ok y := y1
      have f1 : rotateResult libm (mioEnv alloc junk junkX junk2 year).junk (code i) (code o) loc y (lead ++ [3], out) = _ := f1
      simp only [y1, called_ok, except_ok_bind, e1, f1, g1]
    · obtain ⟨rs, h2, h3⟩ := e3 idx hidx
      rw [h3]
      exact .composed _ g rs (convert_code i .spherical (P idx)) h2 hg (sum_at _ g (P idx) rs)

theorem items_value : ∀ (items : List (Member ℝ × Scale ℝ × Args ℝ)) {loc sph : NdArray ℝ} {P Q : List Nat → V3 ℝ},
    VectorsOf loc lead P → VectorsOf sph lead Q → (lt = [] → sph.arr.stride.getLast? = some 1) → ∀ (args : Args ℝ),
    GoodItems lt lead items args →
    ∃ out R, evalItems libm (mioEnv alloc junk junkX junk2 year) items time loc sph args =
        .ok (lead ++ [3], out) ∧ Shows lead out R ∧
      ∀ idx, Index lead idx → ∃ rs, ValuesAt lead idx (T (idx.take lt.length)) items args (Q idx) rs ∧
        R idx = sumTotal (T (idx.take lt.length)) rs
  | [], _, _, _, _, hx, _, _, args, _ => by
    obtain ⟨out, e1, e2⟩ := empty_result ht hx hp
    exact ⟨out, _, by rw [evalItems, e1], e2, fun idx _ => ⟨[], .nil, rfl⟩⟩
  | (m, sc, params) :: rest, _, sph, _, Q, _, hs, h1, args, h => by
    rw [GoodItems] at h
    obtain ⟨out, R, e1, e2, e3⟩ := member_value m hs h1 .spherical .spherical sc (args.update params)
      (h.1 _ (merged_update args params))
    obtain ⟨out', R', f1, f2, f3⟩ := rest_value rest hs h1 args h.2 e2
    refine ⟨out', R', ?_, f2, fun idx hi => ?_⟩
    · rw [evalItems]
      have e1 : evalMember libm (mioEnv alloc junk junkX junk2 year) m time sph 1 1 sc (args.update params) = _ := e1
      rw [e1]
      exact f1
    · obtain ⟨rs, r1, r2⟩ := f3 idx hi
      exact ⟨R idx :: rs, .cons (merged_update args params) (e3 idx hi) r1, r2⟩

theorem rest_value : ∀ (items : List (Member ℝ × Scale ℝ × Args ℝ)) {sph : NdArray ℝ} {Q : List Nat → V3 ℝ},
    VectorsOf sph lead Q → (lt = [] → sph.arr.stride.getLast? = some 1) → ∀ (args : Args ℝ),
    GoodItems lt lead items args → ∀ {acc : List (Option ℝ)} {R0 : List Nat → Option (V3 ℝ)}, Shows lead acc R0 →
    ∃ out R, evalRest libm (mioEnv alloc junk junkX junk2 year) items time sph args (lead ++ [3], acc) =
        .ok (lead ++ [3], out) ∧ Shows lead out R ∧
      ∀ idx, Index lead idx → ∃ rs, ValuesAt lead idx (T (idx.take lt.length)) items args (Q idx) rs ∧
        R idx = rs.foldl addV (R0 idx)
  | [], _, _, _, _, args, _, acc, R0, h0 => ⟨acc, R0, by rw [evalRest], h0, fun idx _ => ⟨[], .nil, rfl⟩⟩
  | (m, sc, params) :: rest, sph, Q, hs, h1, args, h, acc, R0, h0 => by
    rw [GoodItems] at h
    obtain ⟨out, R, e1, e2, e3⟩ := member_value m hs h1 .spherical .spherical sc (args.update params)
      (h.1 _ (merged_update args params))
    obtain ⟨c, c1, c2⟩ := add_arrays h0 e2
    obtain ⟨out', R', f1, f2, f3⟩ := rest_value rest hs h1 args h.2 c2
    refine ⟨out', R', ?_, f2, fun idx hi => ?_⟩
    · rw [evalRest]
      have e1 : evalMember libm (mioEnv alloc junk junkX junk2 year) m time sph 1 1 sc (args.update params) = _ := e1
      rw [e1]
      simp only [except_ok_bind, c1]
      exact f1
    · obtain ⟨rs, r1, r2⟩ := f3 idx hi
      exact ⟨R idx :: rs, .cons (merged_update args params) (e3 idx hi) r1, r2⟩
end
end

/-- **C80** Composed models on arrays, with all kinds of components, composed models included.  At each index the value is
the sum of the values of the components there, each with its scale and with its parameters, which override the keyword
arguments of the call, in the coordinates of the output, times the scale of the call.  It is NaN if one of the components is
NaN.  A model without components gives zeros, but NaN for times which are NaN.
What is missing: as for C75, C77 and C79 for the components (one unit of time, no coefficient given twice in a selection,
one kind of source, degree 1 and more, not next to the poles); infinite times; for a single time coordinates which are not
contiguous in the last dimension; F10.7 of a single time without dimensions; arrays of 15 dimensions; scales which are
arrays of more dimensions; parameters which are `None`; exact arithmetic. -/
theorem C80_eval_partial (alloc : Nat → Mem ℝ) (ha : ∀ N, MemOk (alloc N) N) (junk : Nat → List ℝ)
    (hj : ∀ n, (junk n).length = n) (junkX : Nat → List (X ℝ)) (hjX : ∀ n, (junkX n).length = n) (junk2 : Nat → ℝ × ℝ)
    (year : Int) (m : Member ℝ) (time : NdArray (X ℝ)) (loc : NdArray ℝ) (lt lead : List Nat) (T : List Nat → X ℝ)
    (P : List Nat → V3 ℝ) (ht : ItemsOf time lt T) (hx : VectorsOf loc lead P) (hp : lt <+: lead)
    (hT : ∀ idx, Index lt idx → T idx ≠ .ninf ∧ T idx ≠ .pinf) (hl : lead.length ≤ 14)
    (h1 : lt = [] → loc.arr.stride.getLast? = some 1) (i o : CT) (sc : Scale ℝ) (args : Args ℝ)
    (hm : GoodMember lt lead m sc args) :
    ∃ out, evalMember libm (mioEnv alloc junk junkX junk2 year) m time loc (code i) (code o) sc args =
        .ok (lead ++ [3], out) ∧ out.length = (lead ++ [3]).prod ∧
      ∀ idx, Index lead idx → ∃ r, ValueAt lead idx (T (idx.take lt.length)) m i o sc args (P idx) r ∧
        ∀ k : Fin 3, out[rank (lead ++ [3]) (idx ++ [k.val])]? = some (r.map (comp · k)) := by
  obtain ⟨out, R, e1, e2, e3⟩ := member_value alloc ha junk hj junkX hjX junk2 year time lt lead T ht hp hT hl m hx h1 i o sc
    args hm
  exact ⟨out, e1, e2.1, fun idx hi => ⟨R idx, e3 idx hi, e2.2 idx hi⟩⟩

/-- **C80** composed models do not check the coordinate system of the output: with a number which is none of the systems
they give the result in spherical coordinates. -/
theorem C80_any_output {St : Type} (env : MioEnv ℝ St) (items : List (Member ℝ × Scale ℝ × Args ℝ)) (time : NdArray (X ℝ))
    (loc : NdArray ℝ) (ctIn ctOut : Int) (sc : Scale ℝ) (args : Args ℝ) (h : checkCT ctOut = none) :
    evalMember libm env (.composed items) time loc ctIn ctOut sc args =
      evalMember libm env (.composed items) time loc ctIn 1 sc args := by
  have h0 : ctOut ≠ 0 := by rintro rfl; simp [checkCT] at h
  have h2 : ctOut ≠ 2 := by rintro rfl; simp [checkCT] at h
  rw [evalMember, evalMember]
  have e : ∀ (sph : NdArray ℝ) (r : Items ℝ), rotateResult libm env.junk ctIn ctOut loc sph r =
      rotateResult libm env.junk ctIn 1 loc sph r := by
    intro sph r
    unfold rotateResult
    simp only [if_neg h0, if_neg h2]
    rfl
  simp only [e]

/-- **C80** a model without components takes times of more dimensions than the points, but only for the output in
spherical coordinates; the rotations are refused with a `ValueError`. -/
theorem C80_empty_times (alloc : Nat → Mem ℝ) (junk : Nat → List ℝ) (hj : ∀ n, (junk n).length = n)
    (junkX : Nat → List (X ℝ)) (junk2 : Nat → ℝ × ℝ) (year : Int) (time : NdArray (X ℝ)) (loc : NdArray ℝ)
    (lt lead : List Nat) (T : List Nat → X ℝ) (P : List Nat → V3 ℝ) (ht : ItemsOf time lt T) (hx : VectorsOf loc lead P)
    (hl : lead.length < lt.length) (hl15 : lt.length ≤ 15) (h0 : lead ≠ []) (i : CT) (args : Args ℝ) :
    (∃ out, evalMember libm (mioEnv alloc junk junkX junk2 year) (.composed []) time loc (code i) 1 .default args =
      .ok (lt ++ [3], out)) ∧
    evalMember libm (mioEnv alloc junk junkX junk2 year) (.composed []) time loc (code i) 2 .default args =
      .error (.call .valueError) := by
  obtain ⟨y, y1, y2⟩ := nd_convert junk hj (by omega) hx i .spherical
  have y1 : convertNd libm (mioEnv alloc junk junkX junk2 year).junk loc (code i) 1 = .ok y := y1
  have hempty : ∃ F : List Nat → V3 (Option ℝ), ∃ out, emptyResult time loc = .ok (lt ++ [3], out) ∧
      out.length = lt.prod * 3 ∧ VectorsOf (newArray (lt ++ [3]) out) lt F := by
    set z : X ℝ → Option ℝ := fun t => match t with | .nan => none | _ => some 0 with hz
    refine ⟨fun idx => ⟨z (T idx), z (T idx), z (T idx)⟩,
      ((indices lt).map (fun idx => [z (T idx), z (T idx), z (T idx)])).flatten, ?_, ?_, nd_vectors ?_⟩
    · unfold emptyResult
      simp only [ht.dim, hx.dim, nd_items ht, called_ok, except_ok_bind]
      have hs : (if lt.length + 1 > (lead ++ [3]).length then lt ++ [3] else lead ++ [3]) = lt ++ [3] :=
        if_pos (by simp; omega)
      rw [hs, if_pos (List.take_left ..)]
      simp only [List.drop_left]
      rw [List.flatMap_map]
      refine congrArg (fun f => Except.ok (lt ++ [3], List.flatMap f (indices lt))) (funext fun idx => ?_)
      simp only [hz]
      cases T idx <;> rfl
    · rw [flatten_length 3 _ (by
        intro b hb
        obtain ⟨x, -, rfl⟩ := List.mem_map.mp hb
        rfl), List.length_map, indices_length]
    · intro idx hi k
      rw [rank_append 3 k.val hi, flatten_get 3 _ _ k.val (by
        intro b hb
        obtain ⟨x, -, rfl⟩ := List.mem_map.mp hb
        rfl) k.isLt, List.getElem?_map, indices_rank hi]
      fin_cases k <;> rfl
  obtain ⟨F, out, e1, elen, e2⟩ := hempty
  constructor
  · rw [evalMember]
    simp only [y1, called_ok, except_ok_bind, evalItems, e1]
    unfold rotateResult
    simp only [show ¬((1 : Int) = 0) by decide, show ¬((1 : Int) = 2) by decide, if_false, called_ok, except_ok_bind]
    unfold scaleResult
    have : ∀ l : List (List (Option ℝ)), l.mapM (scaleNanRow (.default : Scale ℝ)) = some l := by
      intro l
      induction l with
      | nil => rfl
      | cons a l ih => rw [List.mapM_cons, ih]; rfl
    simp only [checkScale, except_ok_bind, this, orValueError]
    exact ⟨_, rfl⟩
  · rw [evalMember]
    simp only [y1, called_ok, except_ok_bind, evalItems, e1]
    unfold rotateResult
    simp only [show ¬((2 : Int) = 0) by decide, if_false, if_true]
    rw [(C49_vrot (vrotSph2cartNan libm) (junkNan (mioEnv alloc junk junkX junk2 year).junk) (junkNan_len hj)
      (newArray (lt ++ [3]) out) (lastIndex y 0) (lastIndex y 1) lt lead lead hl15 _ _ _ e2
      (nd_last y2 0) (nd_last y2 1)).2 (by
        rintro ⟨h | h, -⟩
        · exact h0 h
        · rw [h] at hl
          exact lt_irrefl _ hl)]
    rfl

/-! ### Examples -/

theorem optionsOf_unique {args : Args ℝ} {sc : Scale ℝ} {opt : Options ℝ} (h : OptionsOf args sc opt) :
    opt = args.options sc := by
  obtain ⟨lo, hi, s⟩ := opt
  obtain ⟨h1, h2, h3⟩ := h
  have e1 : lo = args.minDegree.getD (-1) := by
    cases h : args.minDegree with
    | none => exact h2.1 h
    | some n => exact h2.2 n h
  have e2 : hi = args.maxDegree.getD (-1) := by
    cases h : args.maxDegree with
    | none => exact h3.1 h
    | some n => exact h3.2 n h
  simp only [Args.options, Options.mk.injEq]
  exact ⟨e1, e2, h1⟩

-- the conditions: a spherical harmonic model with the scale 3, and a composed model with a MIO model whose F10.7 is given
-- as a parameter, for arrays of two times and two points
example : GoodMember [2] [2] (.composed [(.sh sampleTree, .scalar 3, {}),
    (.composed [(.mio (smallMio ℝ), .default, { f107 := some (newArray [] [some 70]) })], .vector [1, 2, 3], {})])
    (.scalar 2) {} := by
  rw [GoodMember]
  refine ⟨⟨⟨2, 2, 2⟩, .inl (.inr (.inl ⟨2, rfl, rfl⟩))⟩, ?_⟩
  rw [GoodItems, GoodItems, GoodItems]
  refine ⟨?_, ?_, trivial⟩
  · intro a ha
    rw [GoodMember]
    refine ⟨⟨⟨3, 3, 3⟩, .inr (.inl ⟨3, rfl, rfl⟩)⟩, ⟨true, ?_⟩, by simp, fun _ => sampleTree_ordered⟩
    intro opt hopt sets hs
    have h1 : a.minDegree = none := ha.minDegree
    have h2 : a.maxDegree = none := ha.maxDegree
    rw [optionsOf_unique hopt]
    simp only [Args.options, h1, h2]
    exact sampleTree_good sets hs
  · intro a ha
    rw [GoodMember]
    refine ⟨⟨⟨1, 2, 3⟩, .inl (.inr (.inr ⟨1, 2, 3, rfl, rfl⟩))⟩, ?_⟩
    rw [GoodItems, GoodItems]
    refine ⟨?_, trivial⟩
    intro b hb
    have h1 : b.minDegree = none := hb.minDegree.trans ha.minDegree
    have h2 : b.maxDegree = none := hb.maxDegree.trans ha.maxDegree
    have h3 : b.f107 = some (newArray [] [some 70]) := hb.f107.2 _ rfl
    have h4 : b.latSol = none := (hb.latSol.1 rfl).trans (ha.latSol.1 rfl)
    have h5 : b.lonSol = none := (hb.lonSol.1 rfl).trans (ha.lonSol.1 rfl)
    rw [GoodMember]
    refine ⟨⟨⟨1, 1, 1⟩, .inl (.inl ⟨rfl, rfl⟩)⟩, fun opt hopt => ⟨1, ?_⟩, ?_⟩
    · rw [optionsOf_unique hopt]
      simp only [Args.options, h1, h2]
      exact ⟨by simp [smallMio], by simp [smallMio], by simp [smallMio], by simp [smallMio],
        by simp [smallMio, MaxDegree, Kept], le_rfl, by norm_num [ncoef]⟩
    · unfold GoodArgs
      rw [h3, h4, h5]
      exact ⟨⟨fun _ => some (some 70), [], fun _ => some 70, .inl rfl, items_new (dims := []) (fun _ => some (70 : ℝ)),
        fun _ _ => rfl⟩, by simp, ⟨fun _ => none, fun _ _ => rfl⟩, ⟨fun _ => none, fun _ _ => rfl⟩⟩

-- two components at (0°, 0°, 8) and (0°, 90°, 8) on the days 10 and 5000.  The first one gives -3 (4 + 0), 0 and -3 7 to
-- the north, east and up, i.e. (-21, 0, -12) in Cartesian coordinates; the second one is the MIO model of the examples of
-- C79, valid on the first day only, with F10.7 1 as a parameter, overriding the one of the call: (-21/2, -9, -135).  The sum
-- times 2
example : (match evalMember (K := ℚ) (St := Unit) quarters
      ⟨⟨fun c _ s v rows => some (s, none, some ⟨c.scaleGradient.x * ((rows[1]?.map Prod.fst).getD 0 + v.x),
        c.scaleGradient.y * v.y, c.scaleGradient.z * 7⟩), fun _ => (),
        fun n => List.replicate n 0, fun n => List.replicate n (.fin 0), 0⟩, fun _ => (0, 0), fun _ => 0⟩
      (.composed [(.sh (.sparse ⊥ ⊤ ⟨⟨[.ninf], [((1, 0), [.fin 4])], .c0⟩, false, true⟩), .scalar 3, {}),
        (.mio (smallMio ℚ), .default, { f107 := some (newArray [2] [some 1, some 1]) })])
      (newArray [2] [.fin 10, .fin 5000]) (newArray [2, 3] [0, 0, 8, 0, 90, 8]) 1 2 (.scalar 2)
      { f107 := some (newArray [2] [none, none]), latSol := some (newArray [] [0]), lonSol := some (newArray [] [180]) } with
    | .ok (shape, items) => shape == [2, 3] && items ==
        [some (-63), some (-18), some (-294), none, none, none]
    | _ => false) = true := by
  decide +kernel

end Verif.Props
