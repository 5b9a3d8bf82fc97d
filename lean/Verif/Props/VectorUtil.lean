/-
C86: rotation, norm, inclination and declination of vectors on arrays.
-/
import Verif.Lemmas.Broadcast
import Verif.Props.Rotation
import Verif.Props.MioField

set_option linter.unusedSectionVars false

namespace Verif.Props

open Verif.Geo Verif.Spec Verif.Arr Verif.Buf Verif.MioField Verif.Field Verif.VectorUtil

/-! ### Specification -/

/-- The Cartesian vector with the given components along north, east and up at the latitude and the longitude (degrees). -/
noncomputable def inSpace (lat lon : ℝ) (v : V3 ℝ) : V3 ℝ :=
  let a := lat * (Real.pi / 180)
  let b := lon * (Real.pi / 180)
  ⟨v.x * (-(Real.sin a * Real.cos b)) + v.y * (-Real.sin b) + v.z * (Real.cos a * Real.cos b),
   v.x * (-(Real.sin a * Real.sin b)) + v.y * Real.cos b + v.z * (Real.cos a * Real.sin b),
   v.x * Real.cos a + v.z * Real.sin a⟩

/-! ### Items -/

theorem vu_last {A : Type} {c : NdArray A} {l : List Nat} {m : Nat} {C : List Nat → A} (hc : ItemsOf c (l ++ [m]) C) {k : Nat}
    (hk : k < m) : lastItem c k = .ok (lastIndex c k) ∧ ItemsOf (lastIndex c k) l (fun idx => C (idx ++ [k])) := by
  constructor
  · unfold lastItem
    rw [hc.dim]
    simp [hk]
  · have hsl : c.arr.stride.length = l.length + 1 := by rw [hc.ndim, hc.dim]; simp
    obtain ⟨s, t, hs⟩ : ∃ s t, c.arr.stride = s ++ [t] := by
      rw [← List.dropLast_append_getLast (l := c.arr.stride) (by intro h0; rw [h0] at hsl; simp at hsl)]
      exact ⟨_, _, rfl⟩
    have hsl' : s.length = l.length := by rw [hs] at hsl; simpa using hsl
    refine ⟨by simp [lastIndex, hc.dim], by simp [lastIndex, hc.dim, hs, hsl'], fun idx hi => ?_⟩
    have hil := index_length hi
    rw [← hc.get (idx ++ [k]) (List.rel_append hi (.cons hk .nil))]
    unfold elem lastIndex
    simp only
    rw [← offset_eq, ← offset_eq, hs, offset_append _ _ _ _ (by omega)]
    simp only [List.dropLast_concat, offset]
    congr 1
    simp
    ring

theorem vu_last_error {A : Type} {c : NdArray A} {l : List Nat} {m k : Nat} (hc : c.arr.dim = l ++ [m]) (hk : m ≤ k) :
    lastItem c k = .error (.shape .indexError) := by
  unfold lastItem
  rw [hc]
  simp [Nat.not_lt.mpr hk]

theorem vu_scalars {a : NdArray ℝ} {l : List Nat} {S : List Nat → ℝ} (h : ItemsOf a l S) : ScalarsOf a l S :=
  ⟨h.dim, h.ndim, h.get⟩

theorem vu_dg (x : ℝ) : dg2rad libm * x = x * (Real.pi / 180) := by
  rw [mul_comm]
  rfl

theorem vu_sph2cart (v : V3 ℝ) (lat lon : ℝ) : vrotSph2cart libm v lat lon = inSpace lat lon v := by
  refine V3.ext' ?_ ?_ ?_ <;> simp only [vrotSph2cart, rot2d, inSpace, vu_dg] <;> simp only [libm] <;> ring

theorem vu_cart2sph (v : V3 ℝ) (lat lon : ℝ) : inSpace lat lon (vrotCart2sph libm v lat lon) = v := by
  rw [← vu_sph2cart]
  exact (C33_inverse v lat lon).2

theorem vu_sph2geod (v : V3 ℝ) (a b l : ℝ) : inSpace b l (vrotSph2geod libm v (b - a)) = inSpace a l v := by
  rw [← vu_sph2cart, ← vu_sph2cart]
  have e : dg2rad libm * a = dg2rad libm * b + -dg2rad libm * (b - a) := by ring
  have hs : libm.sin (dg2rad libm * a) = _ := (congrArg Real.sin e).trans (Real.sin_add _ _)
  have hc : libm.cos (dg2rad libm * a) = _ := (congrArg Real.cos e).trans (Real.cos_add _ _)
  refine V3.ext' ?_ ?_ ?_ <;> simp only [vrotSph2geod, vrotSph2cart, rot2d, hs, hc] <;>
    simp only [libm] <;> ring

theorem source_nil (idx : List Nat) : source [] idx = [] := rfl

/-! ### Rotation between geodetic and spherical coordinates -/

theorem rotateLat_ok (junk : Nat → List ℝ) (hj : ∀ n, (junk n).length = n) {x ci co : NdArray ℝ} {lead li lo d : List Nat}
    (hl : lead.length ≤ 15) {X : List Nat → V3 ℝ} {I O : List Nat → ℝ} {mi mo : Nat} (hx : VectorsOf x lead X)
    (hi : ItemsOf ci (li ++ [mi]) I) (ho : ItemsOf co (lo ++ [mo]) O) (h1 : 0 < mi) (h2 : 0 < mo)
    (hb : Broadcast lo li d) :
    (d = [] ∨ d = lead → ∃ y, rotateLat libm junk x (some ci) (some co) = .ok y ∧ VectorsOf y lead (fun idx =>
      vrotSph2geod libm (X idx) (O (source lo idx ++ [0]) - I (source li idx ++ [0])))) ∧
    (¬(d = [] ∨ d = lead) → rotateLat libm junk x (some ci) (some co) = .error (.call .valueError)) := by
  obtain ⟨i1, i2⟩ := vu_last hi h1
  obtain ⟨o1, o2⟩ := vu_last ho h2
  obtain ⟨y, y1, y2⟩ := bcast_items (fun a b : ℝ => a - b) o2 i2 hb
  have hc := C49_vrot_sph2geod junk hj x y lead d hl X _ hx (vu_scalars y2)
  constructor
  · intro h
    obtain ⟨data, a1, -, a3⟩ := hc.1 h
    refine ⟨newArray (lead ++ [3]) data, ?_, nd_vectors fun idx hidx k => ?_⟩
    · unfold rotateLat
      simp only [coordItem, i1, o1, except_ok_bind, y1, called, a1, freshNd]
      rfl
    · rw [a3 idx hidx k]
      rcases h with rfl | rfl
      · have : lo = [] ∧ li = [] := by
          have := hb.length
          simp only [List.length_nil] at this
          exact ⟨List.eq_nil_of_length_eq_zero (by omega), List.eq_nil_of_length_eq_zero (by omega)⟩
        rw [this.1, this.2]
        rfl
      · rw [← index_length hidx, List.take_length]
  · intro h
    have := hc.2 h
    unfold rotateLat
    simp only [coordItem, i1, o1, except_ok_bind, y1, called, this, freshNd]
    rfl

theorem vrotateNd_lat (junk : Nat → List ℝ) (x : NdArray ℝ) (ci co : Option (NdArray ℝ)) {i o : CT} (h : i ≠ o)
    (hi : i ≠ .cartesian) (ho : o ≠ .cartesian) :
    vrotateNd libm junk x ci co (code i) (code o) = rotateLat libm junk x ci co := by
  cases i <;> cases o <;> simp_all [vrotateNd, code]

/-- **C86**, `vrotate` between the geodetic and the spherical coordinates: the coordinates may have different dimensions,
which are combined in the way of NumPy; the result keeps every vector where it is in the space. -/
theorem C86_latitude (junk : Nat → List ℝ) (hj : ∀ n, (junk n).length = n) (x ci co : NdArray ℝ) (lead li lo : List Nat)
    (hl : lead.length ≤ 15) (X : List Nat → V3 ℝ) (I O : List Nat → ℝ) (mi mo : Nat) (hx : VectorsOf x lead X)
    (hi : ItemsOf ci (li ++ [mi]) I) (ho : ItemsOf co (lo ++ [mo]) O) (h1 : 0 < mi) (h2 : 0 < mo) (i o : CT) (hne : i ≠ o)
    (hci : i ≠ .cartesian) (hco : o ≠ .cartesian) :
    (Broadcast lo li [] ∨ Broadcast lo li lead → ∃ y W,
      vrotateNd libm junk x (some ci) (some co) (code i) (code o) = .ok y ∧ VectorsOf y lead W ∧
      ∀ idx, Index lead idx → ∀ lon, inSpace (O (source lo idx ++ [0])) lon (W idx) =
        inSpace (I (source li idx ++ [0])) lon (X idx)) ∧
    (¬(Broadcast lo li [] ∨ Broadcast lo li lead) →
      vrotateNd libm junk x (some ci) (some co) (code i) (code o) = .error (.call .valueError)) := by
  rw [vrotateNd_lat junk x _ _ hne hci hco]
  constructor
  · intro h
    have : ∃ d, Broadcast lo li d ∧ (d = [] ∨ d = lead) := by
      rcases h with h | h
      · exact ⟨_, h, .inl rfl⟩
      · exact ⟨_, h, .inr rfl⟩
    obtain ⟨d, hd, hd2⟩ := this
    obtain ⟨y, y1, y2⟩ := (rotateLat_ok junk hj hl hx hi ho h1 h2 hd).1 hd2
    exact ⟨y, _, y1, y2, fun idx _ lon => vu_sph2geod _ _ _ _⟩
  · intro h
    by_cases hc : Compatible lo li
    · obtain ⟨d, hd⟩ := bcastDims_isSome hc
      have hd := bcastDims_some hd
      refine (rotateLat_ok junk hj hl hx hi ho h1 h2 hd).2 fun hd2 => h ?_
      rcases hd2 with rfl | rfl
      · exact .inl hd
      · exact .inr hd
    · have e := bcast_error (fun a b : ℝ => a - b) (a := lastIndex co 0) (b := lastIndex ci 0) (by
        rw [(vu_last ho h2).2.dim, (vu_last hi h1).2.dim]; exact hc)
      unfold rotateLat
      simp only [coordItem, (vu_last hi h1).1, (vu_last ho h2).1, except_ok_bind, e, called]
      rfl

/-! ### Rotation from and to the Cartesian coordinates -/

theorem rotateLatLon_ok (f : V3 ℝ → ℝ → ℝ → V3 ℝ) (junk : Nat → List ℝ) (hj : ∀ n, (junk n).length = n) {x c : NdArray ℝ}
    {lead l : List Nat} (hl : lead.length ≤ 15) {X : List Nat → V3 ℝ} {C : List Nat → ℝ} {m : Nat} (hx : VectorsOf x lead X)
    (hc : ItemsOf c (l ++ [m]) C) (h1 : 2 ≤ m) :
    (l = [] ∨ l = lead → ∃ y, rotateLatLon f junk x (some c) = .ok y ∧ VectorsOf y lead (fun idx =>
      f (X idx) (C (idx.take l.length ++ [0])) (C (idx.take l.length ++ [1])))) ∧
    (¬(l = [] ∨ l = lead) → rotateLatLon f junk x (some c) = .error (.call .valueError)) := by
  obtain ⟨i1, i2⟩ := vu_last hc (k := 0) (by omega)
  obtain ⟨o1, o2⟩ := vu_last hc (k := 1) (by omega)
  have hr := C49_vrot f junk hj x _ _ lead l l hl X _ _ hx (vu_scalars i2) (vu_scalars o2)
  constructor
  · intro h
    obtain ⟨data, a1, -, a3⟩ := hr.1 h h
    refine ⟨newArray (lead ++ [3]) data, ?_, nd_vectors fun idx hidx k => a3 idx hidx k⟩
    unfold rotateLatLon
    simp only [coordItem, i1, o1, except_ok_bind, called, a1, freshNd]
    rfl
  · intro h
    have := hr.2 (fun hh => h hh.1)
    unfold rotateLatLon
    simp only [coordItem, i1, o1, except_ok_bind, called, this, freshNd]
    rfl

/-- **C86**, `vrotate` to the Cartesian coordinates: coordinates of one point, or of a point for each vector; the output
coordinates are not used. -/
theorem C86_to_cartesian (junk : Nat → List ℝ) (hj : ∀ n, (junk n).length = n) (x ci : NdArray ℝ) (co : Option (NdArray ℝ))
    (lead l : List Nat) (hl : lead.length ≤ 15) (X : List Nat → V3 ℝ) (C : List Nat → ℝ) (m : Nat) (hx : VectorsOf x lead X)
    (hc : ItemsOf ci (l ++ [m]) C) (h1 : 2 ≤ m) (i : CT) (hi : i ≠ .cartesian) :
    (l = [] ∨ l = lead → ∃ y, vrotateNd libm junk x (some ci) co (code i) (code .cartesian) = .ok y ∧
      VectorsOf y lead (fun idx => inSpace (C (idx.take l.length ++ [0])) (C (idx.take l.length ++ [1])) (X idx))) ∧
    (¬(l = [] ∨ l = lead) →
      vrotateNd libm junk x (some ci) co (code i) (code .cartesian) = .error (.call .valueError)) := by
  have e : vrotateNd libm junk x (some ci) co (code i) (code .cartesian) = rotateLatLon (vrotSph2cart libm) junk x (some ci) := by
    cases i <;> simp_all [vrotateNd, code]
  rw [e]
  have := rotateLatLon_ok (vrotSph2cart libm) junk hj hl hx hc h1
  simpa only [vu_sph2cart] using this

/-- **C86**, `vrotate` from the Cartesian coordinates; the input coordinates are not used. -/
theorem C86_from_cartesian (junk : Nat → List ℝ) (hj : ∀ n, (junk n).length = n) (x co : NdArray ℝ) (ci : Option (NdArray ℝ))
    (lead l : List Nat) (hl : lead.length ≤ 15) (X : List Nat → V3 ℝ) (C : List Nat → ℝ) (m : Nat) (hx : VectorsOf x lead X)
    (hc : ItemsOf co (l ++ [m]) C) (h1 : 2 ≤ m) (o : CT) (ho : o ≠ .cartesian) :
    (l = [] ∨ l = lead → ∃ y W, vrotateNd libm junk x ci (some co) (code .cartesian) (code o) = .ok y ∧ VectorsOf y lead W ∧
      ∀ idx, Index lead idx →
        inSpace (C (idx.take l.length ++ [0])) (C (idx.take l.length ++ [1])) (W idx) = X idx) ∧
    (¬(l = [] ∨ l = lead) →
      vrotateNd libm junk x ci (some co) (code .cartesian) (code o) = .error (.call .valueError)) := by
  have e : vrotateNd libm junk x ci (some co) (code .cartesian) (code o) = rotateLatLon (vrotCart2sph libm) junk x (some co) := by
    cases o <;> simp_all [vrotateNd, code]
  rw [e]
  obtain ⟨a, b⟩ := rotateLatLon_ok (vrotCart2sph libm) junk hj hl hx hc h1
  refine ⟨fun h => ?_, b⟩
  obtain ⟨y, y1, y2⟩ := a h
  exact ⟨y, _, y1, y2, fun idx _ => vu_cart2sph _ _ _⟩

/-! ### Other arguments -/

/-- **C86**, equal types, of whatever value: the array itself, the coordinates are not looked at. -/
theorem C86_same (junk : Nat → List ℝ) (x : NdArray ℝ) (ci co : Option (NdArray ℝ)) (t : Int) :
    vrotateNd libm junk x ci co t t = .ok x := by
  unfold vrotateNd
  rw [if_pos rfl]

/-- **C86**, other types than 0, 1 and 2: `ValueError`. -/
theorem C86_types (junk : Nat → List ℝ) (x : NdArray ℝ) (ci co : Option (NdArray ℝ)) (a b : Int) (hab : a ≠ b)
    (h : ¬(0 ≤ a ∧ a ≤ 2 ∧ 0 ≤ b ∧ b ≤ 2)) : vrotateNd libm junk x ci co a b = .error (.shape .valueError) := by
  unfold vrotateNd
  split_ifs <;> first | rfl | omega

/-- **C86**, coordinates which are needed but not given: `TypeError`. -/
theorem C86_missing (junk : Nat → List ℝ) (x : NdArray ℝ) (c : Option (NdArray ℝ)) (i o : CT) (h : i ≠ o) :
    (o = .cartesian ∨ (i ≠ .cartesian ∧ ∃ k, c = some k ∧ ∃ n, k.arr.dim.getLast? = some n ∧ 0 < n) →
      vrotateNd libm junk x none c (code i) (code o) = .error (.shape .typeError)) ∧
    (o ≠ .cartesian → vrotateNd libm junk x c none (code i) (code o) = .error (.shape .typeError)) := by
  constructor
  · rintro (rfl | ⟨hi, k, rfl, n, hn, hpos⟩)
    · cases i <;> simp_all [vrotateNd, code, rotateLatLon, coordItem] <;> rfl
    · cases o <;> cases i <;> simp_all [vrotateNd, code, rotateLatLon, rotateLat, coordItem, lastItem] <;> rfl
  · intro ho
    cases o <;> cases i <;> simp_all [vrotateNd, code, rotateLatLon, rotateLat, coordItem, lastItem] <;> rfl

/-- **C86**, coordinates of points without a longitude cannot be used with the Cartesian coordinates: `IndexError`. -/
theorem C86_few (junk : Nat → List ℝ) (x k : NdArray ℝ) (c : Option (NdArray ℝ)) (l : List Nat) (m : Nat)
    (hk : k.arr.dim = l ++ [m]) (hm : m ≤ 1) (i : CT) (hi : i ≠ .cartesian) :
    vrotateNd libm junk x (some k) c (code i) (code .cartesian) = .error (.shape .indexError) ∧
      vrotateNd libm junk x c (some k) (code .cartesian) (code i) = .error (.shape .indexError) := by
  have h1 := vu_last_error hk hm
  have key : ∀ f : V3 ℝ → ℝ → ℝ → V3 ℝ, rotateLatLon f junk x (some k) = .error (.shape .indexError) := by
    intro f
    unfold rotateLatLon
    simp only [coordItem, h1]
    unfold lastItem
    rw [hk]
    simp only [List.getLast?_concat]
    split_ifs <;> rfl
  constructor
  · rw [← key (vrotSph2cart libm)]
    cases i <;> simp_all [vrotateNd, code]
  · rw [← key (vrotCart2sph libm)]
    cases i <;> simp_all [vrotateNd, code]

/-! ### There and back -/

/-- **C86**, `vrotate` of arrays with coordinates of the same dimensions: a rotation and the opposite one. -/
theorem C86_roundtrip (junk : Nat → List ℝ) (hj : ∀ n, (junk n).length = n) (x ci co : NdArray ℝ) (lead : List Nat)
    (hl : lead.length ≤ 15) (X : List Nat → V3 ℝ) (I O : List Nat → ℝ) (mi mo : Nat) (hx : VectorsOf x lead X)
    (hi : ItemsOf ci (lead ++ [mi]) I) (ho : ItemsOf co (lead ++ [mo]) O) (h1 : 2 ≤ mi) (h2 : 2 ≤ mo) (i o : CT) :
    ∃ y z, vrotateNd libm junk x (some ci) (some co) (code i) (code o) = .ok y ∧
      vrotateNd libm junk y (some co) (some ci) (code o) (code i) = .ok z ∧ VectorsOf z lead X := by
  have inj : ∀ (a b : ℝ) (v w : V3 ℝ), inSpace a b v = inSpace a b w → v = w := by
    intro a b v w h
    rw [← vu_sph2cart, ← vu_sph2cart] at h
    rw [← (C33_inverse v a b).1, h, (C33_inverse w a b).1]
  have congr : ∀ {z : NdArray ℝ} {V W : List Nat → V3 ℝ}, VectorsOf z lead V → (∀ idx, Index lead idx → V idx = W idx) →
      VectorsOf z lead W := by
    intro z V W h e
    exact ⟨h.dim, h.ndim, fun idx hidx => e idx hidx ▸ h.get idx hidx⟩
  have hb : Broadcast lead lead lead := ⟨fun _ => .inl rfl, by simp, fun k => by simp⟩
  by_cases hio : i = o
  · subst hio
    exact ⟨x, x, C86_same _ _ _ _ _, C86_same _ _ _ _ _, hx⟩
  · by_cases hic : i = .cartesian
    · subst hic
      have hoc : o ≠ .cartesian := fun h => hio h.symm
      obtain ⟨y, W, a1, a2, a3⟩ := (C86_from_cartesian junk hj x co (some ci) lead lead hl X O mo hx ho h2 o hoc).1 (.inr rfl)
      obtain ⟨z, b1, b2⟩ := (C86_to_cartesian junk hj y co (some ci) lead lead hl W O mo a2 ho h2 o hoc).1 (.inr rfl)
      exact ⟨y, z, a1, b1, congr b2 a3⟩
    · by_cases hoc : o = .cartesian
      · subst hoc
        obtain ⟨y, a1, a2⟩ := (C86_to_cartesian junk hj x ci (some co) lead lead hl X I mi hx hi h1 i hic).1 (.inr rfl)
        obtain ⟨z, W, b1, b2, b3⟩ := (C86_from_cartesian junk hj y ci (some co) lead lead hl _ I mi a2 hi h1 i hic).1 (.inr rfl)
        exact ⟨y, z, a1, b1, congr b2 fun idx hidx => inj _ _ _ _ (b3 idx hidx)⟩
      · obtain ⟨y, W, a1, a2, a3⟩ := (C86_latitude junk hj x ci co lead lead lead hl X I O mi mo hx hi ho (by omega) (by omega)
          i o hio hic hoc).1 (.inr hb)
        obtain ⟨z, V, b1, b2, b3⟩ := (C86_latitude junk hj y co ci lead lead lead hl W O I mo mi a2 ho hi (by omega) (by omega)
          o i (Ne.symm hio) hoc hic).1 (.inr hb)
        exact ⟨y, z, a1, b1, congr b2 fun idx hidx =>
          inj _ 0 _ _ ((b3 idx hidx 0).trans (a3 idx hidx 0))⟩

/-! ### Norm -/

theorem vu_sum (m : Nat) (g : Nat → ℝ) :
    ((List.range m).map (fun k => g k * g k)).sum = ∑ k ∈ Finset.range m, g k ^ 2 := by
  induction m with
  | zero => simp
  | succ m ih => rw [List.range_succ, List.map_append, List.sum_append, ih, Finset.sum_range_succ]; simp [pow_two]

/-- **C86**, `vnorm` of vectors of any number of components. -/
theorem C86_vnorm (x : NdArray ℝ) (lead : List Nat) (m : Nat) (X : List Nat → ℝ) (hx : ItemsOf x (lead ++ [m]) X) :
    ∃ y, vnormNd libm x = .ok y ∧
      ItemsOf y lead (fun idx => Real.sqrt (∑ k ∈ Finset.range m, X (idx ++ [k]) ^ 2)) := by
  obtain ⟨y, y1, y2⟩ := nd_map (a := newArray lead ((indices lead).map (fun idx =>
    ∑ k ∈ Finset.range m, X (idx ++ [k]) ^ 2))) libm.sqrt (items_new _)
  refine ⟨y, ?_, y2⟩
  rw [← y1]
  unfold vnormNd squares
  have hr := rows_flat lead [m] X
  simp only [List.prod_singleton] at hr
  rw [nd_items hx, hx.dim]
  simp only [except_ok_bind, List.getLast?_concat, List.dropLast_concat, hr, List.map_map]
  show mapNd _ _ = _
  congr 2
  refine List.map_congr_left fun idx _ => ?_
  simp only [Function.comp, indices, List.map_cons, List.map_nil, List.map_map]
  rw [← List.map_eq_flatMap, List.map_map]
  exact vu_sum m (fun k => X (idx ++ [k]))

/-- **C86**, a number: its absolute value. -/
theorem C86_vnorm_number (x : NdArray ℝ) (v : ℝ) (hx : ItemsOf x [] (fun _ => v)) :
    ∃ y, vnormNd libm x = .ok y ∧ ItemsOf y [] (fun _ => |v|) := by
  obtain ⟨y, y1, y2⟩ := nd_map (a := newArray [] ((indices []).map (fun _ => v * v))) libm.sqrt (items_new _)
  refine ⟨y, ?_, ?_⟩
  · rw [← y1]
    unfold vnormNd squares
    rw [nd_items hx, hx.dim]
    rfl
  · have : libm.sqrt (v * v) = |v| := Real.sqrt_mul_self_eq_abs v
    rwa [this] at y2

theorem vu_vectors {x : NdArray ℝ} {lead : List Nat} {X : List Nat → V3 ℝ} (hx : VectorsOf x lead X) :
    ∃ S, ItemsOf x (lead ++ [3]) S ∧ ∀ idx, Index lead idx →
      S (idx ++ [0]) = (X idx).x ∧ S (idx ++ [1]) = (X idx).y ∧ S (idx ++ [2]) = (X idx).z := by
  refine ⟨fun j => match j.getLast? with
    | some 0 => (X j.dropLast).x
    | some 1 => (X j.dropLast).y
    | _ => (X j.dropLast).z, ⟨hx.dim, hx.ndim, fun j hj => ?_⟩, fun idx _ => by simp⟩
  have hl := index_length hj
  obtain ⟨idx, k, rfl⟩ : ∃ idx k, j = idx ++ [k] := by
    rw [← List.dropLast_append_getLast (l := j) (by intro h0; rw [h0] at hl; simp at hl)]
    exact ⟨_, _, rfl⟩
  have hil : idx.length = lead.length := by simpa using hl
  have hi : Index lead idx := by
    have := List.forall₂_take lead.length hj
    rwa [List.take_left' hil, List.take_left' rfl] at this
  have hk : k < 3 := by
    have := List.forall₂_drop lead.length hj
    rw [List.drop_left' hil, List.drop_left' rfl] at this
    cases this
    assumption
  obtain ⟨g0, g1, g2⟩ := hx.get idx hi
  interval_cases k <;> simp [g0, g1, g2]

/-- **C86**, the norm of vectors of three components. -/
theorem C86_vnorm_vectors (x : NdArray ℝ) (lead : List Nat) (X : List Nat → V3 ℝ) (hx : VectorsOf x lead X) :
    ∃ y N, vnormNd libm x = .ok y ∧ ItemsOf y lead N ∧ ∀ idx, Index lead idx →
      N idx = Real.sqrt ((X idx).x ^ 2 + (X idx).y ^ 2 + (X idx).z ^ 2) := by
  obtain ⟨S, s1, s2⟩ := vu_vectors hx
  obtain ⟨y, y1, y2⟩ := C86_vnorm x lead 3 S s1
  refine ⟨y, _, y1, y2, fun idx hi => ?_⟩
  obtain ⟨a, b, c⟩ := s2 idx hi
  simp only [Finset.sum_range_succ, Finset.sum_range_zero, zero_add, a, b, c]

theorem vu_inSpace_norm (lat lon : ℝ) (v : V3 ℝ) :
    (inSpace lat lon v).x ^ 2 + (inSpace lat lon v).y ^ 2 + (inSpace lat lon v).z ^ 2 = v.x ^ 2 + v.y ^ 2 + v.z ^ 2 := by
  rw [← vu_sph2cart]
  exact (C33_length v lat lon).2.1

/-- **C86**, `vrotate` preserves what `vnorm` returns. -/
theorem C86_norm (junk : Nat → List ℝ) (hj : ∀ n, (junk n).length = n) (x ci co : NdArray ℝ) (lead : List Nat)
    (hl : lead.length ≤ 15) (X : List Nat → V3 ℝ) (I O : List Nat → ℝ) (mi mo : Nat) (hx : VectorsOf x lead X)
    (hi : ItemsOf ci (lead ++ [mi]) I) (ho : ItemsOf co (lead ++ [mo]) O) (h1 : 2 ≤ mi) (h2 : 2 ≤ mo) (i o : CT) :
    ∃ y n N, vrotateNd libm junk x (some ci) (some co) (code i) (code o) = .ok y ∧ vnormNd libm y = .ok n ∧
      ItemsOf n lead N ∧ ∃ m, vnormNd libm x = .ok m ∧ ItemsOf m lead N := by
  have hb : Broadcast lead lead lead := ⟨fun _ => .inl rfl, by simp, fun k => by simp⟩
  have : ∃ y W, vrotateNd libm junk x (some ci) (some co) (code i) (code o) = .ok y ∧ VectorsOf y lead W ∧
      ∀ idx, Index lead idx → (W idx).x ^ 2 + (W idx).y ^ 2 + (W idx).z ^ 2 =
        (X idx).x ^ 2 + (X idx).y ^ 2 + (X idx).z ^ 2 := by
    by_cases hio : i = o
    · subst hio
      exact ⟨x, X, C86_same _ _ _ _ _, hx, fun _ _ => rfl⟩
    · by_cases hic : i = .cartesian
      · subst hic
        obtain ⟨y, W, a1, a2, a3⟩ := (C86_from_cartesian junk hj x co (some ci) lead lead hl X O mo hx ho h2 o
          (fun h => hio h.symm)).1 (.inr rfl)
        exact ⟨y, W, a1, a2, fun idx hidx => by rw [← vu_inSpace_norm _ _ (W idx), a3 idx hidx]⟩
      · by_cases hoc : o = .cartesian
        · subst hoc
          obtain ⟨y, a1, a2⟩ := (C86_to_cartesian junk hj x ci (some co) lead lead hl X I mi hx hi h1 i hic).1 (.inr rfl)
          exact ⟨y, _, a1, a2, fun idx _ => vu_inSpace_norm _ _ _⟩
        · obtain ⟨y, W, a1, a2, a3⟩ := (C86_latitude junk hj x ci co lead lead lead hl X I O mi mo hx hi ho (by omega) (by omega)
            i o hio hic hoc).1 (.inr hb)
          refine ⟨y, W, a1, a2, fun idx hidx => ?_⟩
          rw [← vu_inSpace_norm _ 0 (W idx), a3 idx hidx 0, vu_inSpace_norm]
  obtain ⟨y, W, y1, y2, y3⟩ := this
  obtain ⟨n, N, n1, n2, n3⟩ := C86_vnorm_vectors y lead W y2
  obtain ⟨m, M, m1, m2, m3⟩ := C86_vnorm_vectors x lead X hx
  refine ⟨y, n, N, y1, n1, n2, m, m1, m2.dim, m2.ndim, fun idx hidx => ?_⟩
  rw [m2.get idx hidx, m3 idx hidx, n3 idx hidx, y3 idx hidx]

/-! ### Inclination and declination -/

/-- **C86**, `vincdecnorm` of arrays: inclination within [-90, 90], positive down, declination within (-180, 180] from the
north to the east, and the norm (partial: the inclination of zero vectors is NaN in the code; nothing is said of them
except of the norm and the declination). -/
theorem C86_vincdecnorm_partial (junk : Nat → List ℝ) (hj : ∀ n, (junk n).length = n) (x : NdArray ℝ) (lead : List Nat)
    (hl : lead.length ≤ 15) (X : List Nat → V3 ℝ) (hx : VectorsOf x lead X) :
    ∃ a b c A B N, vincdecnormNd libm junk x = .ok (a, b, c) ∧ ItemsOf a lead A ∧ ItemsOf b lead B ∧ ItemsOf c lead N ∧
      ∀ idx, Index lead idx →
        N idx = Real.sqrt ((X idx).x ^ 2 + (X idx).y ^ 2 + (X idx).z ^ 2) ∧ -180 < B idx ∧ B idx ≤ 180 ∧
        (X idx ≠ ⟨0, 0, 0⟩ → |A idx| ≤ 90 ∧
          (X idx).x = N idx * Real.cos (A idx * (Real.pi / 180)) * Real.cos (B idx * (Real.pi / 180)) ∧
          (X idx).y = N idx * Real.cos (A idx * (Real.pi / 180)) * Real.sin (B idx * (Real.pi / 180)) ∧
          (X idx).z = -(N idx * Real.sin (A idx * (Real.pi / 180)))) := by
  obtain ⟨t, t1, t2⟩ := nd_convert junk hj hl hx .cartesian .spherical
  have t1 : convertNd libm junk x 2 1 = .ok t := t1
  have g0 := nd_last t2 0
  have g1 := nd_last t2 1
  have g2 := nd_last t2 2
  have e : ∀ k : Nat, k < 3 → lastItem t k = .ok (lastIndex t k) := by
    intro k hk
    unfold lastItem
    rw [t2.dim]
    simp [hk]
  obtain ⟨a, a1, a2⟩ := nd_map (fun v : ℝ => -v) (a := lastIndex t 0) (d := lead) ⟨g0.dim, g0.ndim, g0.get⟩
  refine ⟨a, lastIndex t 1, lastIndex t 2, _, _, _, ?_, a2, ⟨g1.dim, g1.ndim, g1.get⟩, ⟨g2.dim, g2.ndim, g2.get⟩, ?_⟩
  · unfold vincdecnormNd
    simp only [t1, called, except_ok_bind, e 0 (by omega), e 1 (by omega), e 2 (by omega), a1]
    rfl
  · intro idx _
    have hn : (getFconv libm .cartesian .spherical (X idx)).z = vnorm libm (X idx) := rfl
    refine ⟨?_, ?_, ?_, fun h => ?_⟩
    · show (getFconv libm .cartesian .spherical (X idx)).z = _
      rw [hn]
      simp only [vnorm, libm, pow_two]
    · have := atan2_mem (X idx).y (X idx).x
      have := (lon_deg this.1 this.2).1
      rwa [mul_comm] at this
    · have := atan2_mem (X idx).y (X idx).x
      have := (lon_deg this.1 this.2).2
      rwa [mul_comm] at this
    · obtain ⟨s, s1, s2, -, -, -, -, s3⟩ := C38_vincdecnorm_partial (X idx) h
      have : s = ⟨-(getFconv libm .cartesian .spherical (X idx)).x, (getFconv libm .cartesian .spherical (X idx)).y,
        (getFconv libm .cartesian .spherical (X idx)).z⟩ := (Option.some.inj s1).symm
      rw [this] at s2 s3
      exact ⟨s2, s3⟩

/-! ### Concrete cases -/

example : Broadcast [2, 1] [3] [2, 3] ∧ ¬Compatible [2] [3] ∧ source [3] [1, 2] = [2] ∧ source [2, 1] [1, 2] = [1, 0] := by
  refine ⟨bcastDims_some (by decide), fun h => ?_, rfl, rfl⟩
  have := h 0
  simp [dimAt] at this

/-- Two vectors with one point of the input and two points of the output: the latitudes are broadcast. -/
example : ∃ y W, vrotateNd libm (fun n => List.replicate n 0) (newArray [2, 3] ((indices [2, 3]).map (fun j => (j.sum : ℝ))))
      (some (newArray [1, 3] ((indices [1, 3]).map (fun _ => (10 : ℝ)))))
      (some (newArray [2, 3] ((indices [2, 3]).map (fun j => (20 + j.sum : ℝ))))) 0 1 = .ok y ∧ VectorsOf y [2] W ∧
    ∀ idx, Index [2] idx → ∀ lon, inSpace (20 + ((source [2] idx ++ [0]).sum : ℕ) : ℝ) lon (W idx) =
      inSpace 10 lon ⟨((idx ++ [0]).sum : ℕ), ((idx ++ [1]).sum : ℕ), ((idx ++ [2]).sum : ℕ)⟩ := by
  have hx : ItemsOf (newArray [2, 3] ((indices [2, 3]).map (fun j => (j.sum : ℝ)))) ([2] ++ [3]) (fun j => (j.sum : ℝ)) := items_new _
  exact (C86_latitude (fun n => List.replicate n 0) (by simp) _ _ _ [2] [1] [2] (by simp)
    (fun idx => ⟨((idx ++ [0]).sum : ℕ), ((idx ++ [1]).sum : ℕ), ((idx ++ [2]).sum : ℕ)⟩) (fun _ => 10) (fun j => (20 + j.sum : ℝ)) 3 3
    ⟨rfl, rfl, fun idx hi => ⟨hx.get _ (List.rel_append hi (.cons (by omega) .nil)), hx.get _ (List.rel_append hi (.cons (by omega) .nil)),
      hx.get _ (List.rel_append hi (.cons (by omega) .nil))⟩⟩ (items_new _) (items_new _) (by omega) (by omega)
    .geodetic .spherical (by simp) (by simp) (by simp)).1 (.inr (bcastDims_some (by decide)))

/-- The same arrays cannot be used with the Cartesian coordinates. -/
example (x : NdArray ℝ) (X : List Nat → V3 ℝ) (hx : VectorsOf x [2] X) :
    vrotateNd libm (fun n => List.replicate n 0) x (some (newArray [1, 3] ((indices [1, 3]).map (fun _ => (10 : ℝ))))) none 0 2 =
      .error (.call .valueError) :=
  (C86_to_cartesian (fun n => List.replicate n 0) (by simp) x _ none [2] [1] (by simp) X (fun _ => 10) 3 hx (items_new _)
    (by omega) .geodetic (by simp)).2 (by simp)

/-- The norm of (3, 4). -/
example : ∃ y, vnormNd libm (newArray [2] ((indices [2]).map (fun j => (3 + j.sum : ℝ)))) = .ok y ∧
    ItemsOf y [] (fun idx => Real.sqrt (∑ k ∈ Finset.range 2, (3 + ((idx ++ [k]).sum : ℕ) : ℝ) ^ 2)) :=
  C86_vnorm _ [] 2 (fun j => (3 + j.sum : ℝ)) (items_new _)

end Verif.Props
